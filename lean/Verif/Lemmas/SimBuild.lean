import Verif.Lemmas.SimWrite
/-
The graph of the heap model: built from a document written by the library it is the graph of the value model, with a copy of every
entry in place of its value.
-/
set_option linter.unusedSectionVars false
namespace Spine
namespace Alias
open M
variable {F : Type} [PyRt F] {B : Nat} {N : Nat → Prop} {h : Heap F}

/-- a dictionary whose values lie at most this deep -/
def Shallow (B : Nat) (j : JVal F) : Prop := ∃ d, j = .dict d ∧ ∀ p ∈ d, ∃ (h0 : Heap F) (r0 : Ref F), readJ h0 B r0 = some p.2

theorem JOk.shallow {A : Nat} {r : Ref F} {j : JVal F} (hr : JOk A N h r j) (hj : Shallow B j) : JOk (B + 1) N h r j := by
  obtain ⟨d, rfl, hd⟩ := hj
  exact ⟨hr.1, readJ_entry hr.2 hd⟩

/-- the data of a node -/
def NodeOk (B : Nat) (N : Nat → Prop) (h : Heap F) (t : NType) (r : Ref F) (j : JVal F) : Prop :=
  t = .bone ∨ t = .slot ∨ t = .ik → JOk (B + 1) N h r j

/-- the graphs agree -/
def GOk (B : Nat) (N : Nat → Prop) (h : Heap F) (g : Graph NType (Int × Ref F)) (g' : SGraph F) : Prop :=
  GRel (fun t d d' => d.1 = d'.1 ∧ NodeOk B N h t d.2 d'.2) g g'

theorem GOk.ext {N' : Nat → Prop} {h' : Heap F} {S : Nat → Prop} {g : Graph NType (Int × Ref F)} {g' : SGraph F} (hz : Zone N h) (e : Ext N h S N' h')
    (hg : GOk B N h g g') : GOk B N' h' g g' :=
  hg.imp (fun _ _ _ hr => ⟨hr.1, fun ht => (hr.2 ht).ext hz e⟩)

/-! ### The entries of the document -/

theorem docList_run {A : Nat} {r : Ref F} {d : Dict (JVal F)} {k : Str} {js : List (JVal F)} (hz : Zone N h) (hr : JOk A N h r (.dict d))
    (hd : Dict.get? d k = if js = [] then none else some (.list js)) :
    ∃ l, docList r k h = (.ok l, h) ∧ All₂ (JOk A N h) l js := by
  obtain ⟨a, e, rfl, hN, ho, hf⟩ := hr.dict hz
  unfold docList
  rw [run_bind (run_itemsOf ho)]
  rcases hf.get k with ⟨h1, h2⟩ | ⟨r', j', h1, h2, h3⟩
  · rw [h2] at hd
    rw [h1]
    by_cases hj : js = []
    · subst hj; exact ⟨[], rfl, .nil⟩
    · simp [hj] at hd
  · rw [h2] at hd
    rw [h1]
    by_cases hj : js = []
    · simp [hj] at hd
    · simp only [hj, if_false, Option.some.injEq] at hd
      subst hd
      obtain ⟨b, l, rfl, hb, ho', hl⟩ := h3.list hz
      refine ⟨l, ?_, hl⟩
      unfold iter
      simp only [run_bind (run_deref ho')]
      rfl

/-! ### The index of a node is the place of its entry -/

theorem zip_at {A : Type} {id : A → Str} {v : A → JVal F} {l : List A} {js : List (JVal F)} {x : Str} {i : Int} {w : JVal F}
    (hj : l.map v = js) (hx : (x, (i, w)) ∈ l.zipIdx.map (fun p => (id p.1, ((p.2 : Int), v p.1)))) : js[i.toNat]? = some w := by
  obtain ⟨⟨a, n⟩, hp, e⟩ := List.mem_map.mp hx
  simp only [Prod.mk.injEq] at e
  obtain ⟨_, rfl, rfl⟩ := e
  have h1 := List.mem_zipIdx_iff_getElem?.mp hp
  simp only at h1
  rw [← hj, Int.toNat_natCast, List.getElem?_map, h1]
  rfl

theorem create_at {s : SpineDoc F} {g : SGraph F} (hc : SpineNodes.create s.toJson = .ok g) {k : Str} {n : Node NType (Int × JVal F)}
    (hn : (k, n) ∈ g.nodes) :
    (n.ntype = .bone → (s.data.bones.map (·.toJson s.version.is38))[n.data.1.toNat]? = some n.data.2) ∧
    (n.ntype = .slot → (s.data.slots.map (·.toJson s.version.is38))[n.data.1.toNat]? = some n.data.2) ∧
    (n.ntype = .ik → (s.data.ik.map (ikCls.toJson s.version.is38))[n.data.1.toNat]? = some n.data.2) := by
  obtain ⟨sh, h1, h2⟩ := GShape.create_built hc
  obtain ⟨e1, e2, e3⟩ := GShape.read_vs h1
  have n1 := h2.nodesOf .bone (by decide) (by decide)
  have n2 := h2.nodesOf .slot (by decide) (by decide)
  have n3 := h2.nodesOf .ik (by decide) (by decide)
  simp only [reduceCtorEq, if_true, if_false, List.append_nil, List.nil_append] at n1 n2 n3
  have e2' : sh.slots.map (·.v) = s.data.slots.map (·.toJson s.version.is38) := by
    generalize sh.slots = l at e2
    generalize s.data.slots = m at e2
    induction e2 with
    | nil => rfl
    | cons hr _ ih => simp only [List.map_cons, hr.2, ih]
  have hm : ∀ t, n.ntype = t → (k, (n.data.1, n.data.2)) ∈ nodesOf g t := by
    intro t ht
    unfold nodesOf
    exact List.mem_map.mpr ⟨(k, n), List.mem_filter.mpr ⟨hn, by simp [ht]⟩, rfl⟩
  refine ⟨fun ht => ?_, fun ht => ?_, fun ht => ?_⟩
  · have := hm _ ht
    rw [n1] at this
    exact zip_at (id := fun p : GBone F => graphId .bone p.name) (v := fun p => p.v) e1 this
  · have := hm _ ht
    rw [n2] at this
    exact zip_at (id := fun p : GSlot F => graphId .slot p.name) (v := fun p => p.v) e2' this
  · have := hm _ ht
    rw [n3] at this
    exact zip_at (id := fun p : GIk F => graphId .ik p.name) (v := fun p => p.v) e3 this

theorem all₂_dmap {α β : Type} {P : β → α → Prop} {f : α → β} : ∀ {d : Dict α}, (∀ p ∈ d, P (f p.2) p.2) →
    All₂ (fun p q => p.1 = q.1 ∧ P p.2 q.2) (dmap f d) d
  | [], _ => .nil
  | p :: d, hp => .cons ⟨rfl, hp p (by simp)⟩ (all₂_dmap (fun q hq => hp q (by simp [hq])))

theorem at_get {A : Nat} {l : List (Ref F)} {js : List (JVal F)} (hl : All₂ (JOk A N h) l js) {i : Nat} {w : JVal F} (hi : js[i]? = some w) :
    JOk A N h ((l[i]?).getD .null) w := by
  induction hl generalizing i with
  | nil => simp at hi
  | cons h1 _ ih =>
    cases i with
    | zero =>
      simp only [List.getElem?_cons_zero, Option.some.injEq] at hi
      subst hi
      simpa using h1
    | succ i => simpa using ih (by simpa using hi)

theorem newGraph_step {E : Env F} (hm : 8 + B ≤ E.lim) (hz : Zone N h) {r : Ref F} {s : SpineDoc F} (hr : JOk (8 + B) N h r s.toJson)
    (hb : ∀ b ∈ s.data.bones, Shallow B (b.toJson s.version.is38)) (hs : ∀ b ∈ s.data.slots, Shallow B (b.toJson s.version.is38))
    (hi : ∀ b ∈ s.data.ik, Shallow B (ikCls.toJson s.version.is38 b)) :
    Step N h (newGraph E r) (SpineNodes.create s.toJson) (fun g' g N' h' => GOk B N' h' g g') := by
  have rv : (view (fun h => readJ h E.lim r) .unmodelled : M F _) h = (.ok s.toJson, h) := run_view (readJ_le hr.2 hm)
  cases hc : SpineNodes.create s.toJson with
  | error x =>
    refine .error (h' := h) ?_ (.refl hz _)
    unfold newGraph
    rw [run_bind rv, hc]
    rfl
  | ok g =>
    obtain ⟨d, ed, g1, g2, g3, _⟩ := GShape.get?_doc s
    have hr1 := hr
    rw [ed] at hr1
    obtain ⟨bs, rb, jb⟩ := docList_run (k := s!!"bones") (js := s.data.bones.map (·.toJson s.version.is38)) hz hr1 (by simpa using g1)
    obtain ⟨bs', N1, h1, rb', e1, jb'⟩ := copyL_J (E := E) hm hz jb
    have hr2 := hr1.ext hz e1
    obtain ⟨ss, rs, js⟩ := docList_run (k := s!!"slots") (js := s.data.slots.map (·.toJson s.version.is38)) e1.zone hr2 (by simpa using g2)
    obtain ⟨ss', N2, h2, rs', e2, js'⟩ := copyL_J (E := E) hm e1.zone js
    have hr3 := hr2.ext e1.zone e2
    obtain ⟨is, ri, ji⟩ := docList_run (k := s!!"ik") (js := s.data.ik.map (ikCls.toJson s.version.is38)) e2.zone hr3 (by simpa using g3)
    obtain ⟨is', N3, h3, ri', e3, ji'⟩ := copyL_J (E := E) hm e2.zone ji
    refine .ok (y := withRefs bs' ss' is' g) (h' := h3) (N' := N3) ?_ ((e1.trans e2 (fun _ h _ => h)).trans e3 (fun _ h _ => h)) ?_
    · unfold newGraph
      rw [run_bind rv, hc, run_bind run_lift, run_bind rb, run_bind rb', run_bind rs, run_bind rs', run_bind ri, run_bind ri']
      rfl
    · unfold GOk GRel withRefs
      dsimp only
      refine all₂_dmap (P := NRel _) ?_
      rintro ⟨k, n⟩ hn
      refine ⟨rfl, rfl, rfl, rfl, rfl, ?_⟩
      obtain ⟨c1, c2, c3⟩ := create_at hc hn
      have jb3 := jb'.imp (fun _ _ _ _ hp => (hp.ext e1.zone e2).ext e2.zone e3)
      have js3 := js'.imp (fun _ _ _ _ hp => hp.ext e2.zone e3)
      rintro (ht | ht | ht)
      · have ht : n.ntype = .bone := ht
        simp only [ht]
        refine (at_get jb3 (c1 ht)).shallow ?_
        obtain ⟨b, hb1, hb2⟩ := List.mem_map.mp (List.mem_of_getElem? (c1 ht))
        exact hb2 ▸ hb b hb1
      · have ht : n.ntype = .slot := ht
        simp only [ht]
        refine (at_get js3 (c2 ht)).shallow ?_
        obtain ⟨b, hb1, hb2⟩ := List.mem_map.mp (List.mem_of_getElem? (c2 ht))
        exact hb2 ▸ hs b hb1
      · have ht : n.ntype = .ik := ht
        simp only [ht]
        refine (at_get ji' (c3 ht)).shallow ?_
        obtain ⟨b, hb1, hb2⟩ := List.mem_map.mp (List.mem_of_getElem? (c3 ht))
        exact hb2 ▸ hi b hb1

end Alias
end Spine
