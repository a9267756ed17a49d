import Verif.Lemmas.BuildState
import Verif.Lemmas.DrawOrder
/- The part of a document that matters for the graph, when building succeeds and the resulting nodes and edges. -/
set_option linter.unusedSectionVars false
namespace Spine
open JVal Graph
variable {F : Type}

structure GBone (F : Type) where
  name : Str
  parent : Str
  v : JVal F

structure GSlot (F : Type) where
  name : Str
  bone : Str
  v : JVal F
  /-- key, image and value of every attachment of every skin, in order -/
  atts : List (Str × Str × JVal F)

structure GIk (F : Type) where
  name : Str
  bones : List Str
  target : Option Str
  v : JVal F

structure GShape (F : Type) where
  bones : List (GBone F)
  slots : List (GSlot F)
  iks : List (GIk F)

namespace GShape

def boneCmds (p : GBone F × Nat) : List (Cmd F) :=
  [.node (graphId .bone p.1.name) ((p.2 : Int), p.1.v) .bone, .from_ (graphId .bone p.1.parent) (graphId .bone p.1.name)]

def attCmds (sid : Str) (a : Str × Str × JVal F) : List (Cmd F) := Plan.attCmds sid a.1 a.2.1 a.2.2

def slotCmds (p : GSlot F × Nat) : List (Cmd F) :=
  .node (graphId .slot p.1.name) ((p.2 : Int), p.1.v) .slot ::
    .from_ (graphId .bone p.1.bone) (graphId .slot p.1.name) :: p.1.atts.flatMap (attCmds (graphId .slot p.1.name))

def ikCmds (p : GIk F × Nat) : List (Cmd F) :=
  .node (graphId .ik p.1.name) ((p.2 : Int), p.1.v) .ik ::
    (p.1.bones.map (fun b => .to_ (graphId .ik p.1.name) (graphId .bone b)) ++
      p.1.target.toList.map (fun t => .from_ (graphId .bone t) (graphId .ik p.1.name)))

def cmds (s : GShape F) : List (Cmd F) :=
  s.bones.zipIdx.flatMap boneCmds ++ (s.slots.zipIdx.flatMap slotCmds ++ s.iks.zipIdx.flatMap ikCmds)

end GShape

/-! ### Typed states -/
namespace Abs

def Typed (s : Abs F) : Prop := ∀ i t d, (i, (t, d)) ∈ s.nodes → ∃ n, i = graphId t n

def CmdTyped : Cmd F → Prop
  | .node i _ t => ∃ n, i = graphId t n
  | .opt i _ t => ∃ n, i = graphId t n
  | _ => True

theorem typed_empty : Typed (Abs.empty : Abs F) := by intro i t d h; simp [Abs.empty] at h

theorem Typed.step {s s' : Abs F} {c : Cmd F} (h : Typed s) (e : s.step c = some s') (hc : CmdTyped c) : Typed s' := by
  cases c with
  | node i d t =>
    simp only [Abs.step] at e; split at e
    · cases e
    · injection e with e; subst e
      intro j u d' hm
      simp only [List.mem_append, List.mem_cons, List.not_mem_nil, or_false] at hm
      rcases hm with hm | hm
      · exact h _ _ _ hm
      · injection hm with h1 h2; injection h2 with h2 h3; subst h1 h2; exact hc
  | opt i d t =>
    simp only [Abs.step] at e; split at e
    · injection e with e; subst e; exact h
    · injection e with e; subst e
      intro j u d' hm
      simp only [List.mem_append, List.mem_cons, List.not_mem_nil, or_false] at hm
      rcases hm with hm | hm
      · exact h _ _ _ hm
      · injection hm with h1 h2; injection h2 with h2 h3; subst h1 h2; exact hc
  | edge p c => obtain ⟨rfl, _⟩ := link_some e; exact h
  | from_ p c =>
    simp only [Abs.step] at e; split at e
    · obtain ⟨rfl, _⟩ := link_some e; exact h
    · injection e with e; subst e; exact h
  | to_ p c =>
    simp only [Abs.step] at e; split at e
    · obtain ⟨rfl, _⟩ := link_some e; exact h
    · injection e with e; subst e; exact h

theorem Typed.steps {cs : List (Cmd F)} : ∀ {s s' : Abs F}, Typed s → (∀ c ∈ cs, CmdTyped c) → s.steps cs = some s' → Typed s' := by
  induction cs with
  | nil => intro s s' h _ e; injection e with e; subst e; exact h
  | cons c cs ih =>
    intro s s' h hc e
    obtain ⟨k, h1, h2⟩ := steps_cons e
    exact ih (h.step h1 (hc c (by simp))) (fun c' h' => hc c' (by simp [h'])) h2

theorem Typed.get? {s : Abs F} (h : Typed s) {t : NType} {n : Str} {e : NType × (Int × JVal F)}
    (hg : Dict.get? s.nodes (graphId t n) = some e) : e.1 = t := by
  obtain ⟨m, hm⟩ := h _ _ _ (Dict.mem_of_get? hg)
  exact (graphId_inj hm).1.symm

theorem get?_of_key {α : Type} {d : Dict α} {k : Str} (h : k ∈ Dict.keys d) : ∃ v, Dict.get? d k = some v := by
  have := (Dict.has_iff_mem_keys d k).2 h
  simpa [Dict.has, Option.isSome_iff_exists] using this

theorem Typed.link {s : Abs F} (h : Typed s) {t u : NType} {p c : Str} (hp : graphId t p ∈ Dict.keys s.nodes)
    (hc : graphId u c ∈ Dict.keys s.nodes) (hf : u ∉ (spineFactory t).2) (hne : graphId t p ≠ graphId u c) :
    s.link (graphId t p) (graphId u c) = some { s with edges := s.edges ++ [(graphId t p, graphId u c)] } := by
  obtain ⟨a, ha⟩ := get?_of_key hp
  obtain ⟨b, hb⟩ := get?_of_key hc
  unfold Abs.link
  rw [ha, hb]
  have h1 := h.get? ha
  have h2 := h.get? hb
  simp only [h1, h2]
  rw [if_neg]
  rintro (h | h)
  · exact hf h
  · exact hne h

/-- one phase: every item creates a node of its own; the rest of its commands succeeds exactly when `ok` -/
theorem phase {α : Type} (nm : α → Str) (t : NType) (d : α → Int × JVal F) (rest : α → List (Cmd F)) (ok : α → Prop)
    (P : Abs F → Prop) (l : List α)
    (hP : ∀ x ∈ l, ∀ s s', P s → s.steps (.node (graphId t (nm x)) (d x) t :: rest x) = some s' → P s')
    (hrest : ∀ x ∈ l, ∀ c ∈ rest x, CmdTyped c ∧ ∀ n, creates c ≠ some (graphId t n))
    (hok : ∀ x ∈ l, ∀ s, P s → Typed s → graphId t (nm x) ∈ Dict.keys s.nodes →
      ((∃ s', s.steps (rest x) = some s') ↔ ok x))
    (hPn : ∀ x ∈ l, ∀ s s', P s → s.step (.node (graphId t (nm x)) (d x) t) = some s' → P s') :
    ∀ s, P s → Typed s →
    ((∃ s', s.steps (l.flatMap (fun x => .node (graphId t (nm x)) (d x) t :: rest x)) = some s') ↔
      (l.map nm).Nodup ∧ (∀ x ∈ l, graphId t (nm x) ∉ Dict.keys s.nodes) ∧ ∀ x ∈ l, ok x) := by
  induction l with
  | nil => intro s _ _; simp [Abs.steps]
  | cons x l ih =>
    intro s hs ht
    have ih := ih (fun y hy => hP y (by simp [hy])) (fun y hy => hrest y (by simp [hy])) (fun y hy => hok y (by simp [hy]))
      (fun y hy => hPn y (by simp [hy]))
    rw [List.flatMap_cons]
    have hk : ∀ s1, s.step (.node (graphId t (nm x)) (d x) t) = some s1 → graphId t (nm x) ∈ Dict.keys s1.nodes :=
      fun s1 e => (step_keys e _).2 (.inr rfl)
    have hk2 : ∀ s1 s2, s.step (.node (graphId t (nm x)) (d x) t) = some s1 → s1.steps (rest x) = some s2 → ∀ n,
        (graphId t n ∈ Dict.keys s2.nodes ↔ graphId t n ∈ Dict.keys s.nodes ∨ n = nm x) := by
      intro s1 s2 e1 e2 n
      rw [steps_keys e2, step_keys e1]
      simp only [creates, Option.some.injEq]
      constructor
      · rintro ((h | h) | ⟨c, hc, h⟩)
        · exact .inl h
        · exact .inr (graphId_inj'.1 h.symm)
        · exact absurd h ((hrest x (by simp) c hc).2 n)
      · rintro (h | h)
        · exact .inl (.inl h)
        · exact .inl (.inr (by rw [h]))
    have split : (∃ s', s.steps ((.node (graphId t (nm x)) (d x) t :: rest x) ++
        l.flatMap (fun x => .node (graphId t (nm x)) (d x) t :: rest x)) = some s') ↔
        ∃ s1, s.step (.node (graphId t (nm x)) (d x) t) = some s1 ∧ ∃ s2, s1.steps (rest x) = some s2 ∧
          ∃ s', s2.steps (l.flatMap (fun x => .node (graphId t (nm x)) (d x) t :: rest x)) = some s' := by
      rw [steps_append]
      simp only [Abs.steps]
      cases s.step (.node (graphId t (nm x)) (d x) t) with
      | none => simp
      | some s1 => cases h2 : s1.steps (rest x) with
        | none => simp [h2]
        | some s2 => simp [h2]
    rw [split]
    have node : ∀ s1, s.step (.node (graphId t (nm x)) (d x) t) = some s1 → graphId t (nm x) ∉ Dict.keys s.nodes := by
      intro s1 e hm
      simp [Abs.step, (Dict.has_iff_mem_keys _ _).2 hm] at e
    constructor
    · rintro ⟨s1, e1, s2, e2, hs'⟩
      have t1 : Typed s1 := ht.step e1 ⟨_, rfl⟩
      have t2 : Typed s2 := t1.steps (fun c hc => (hrest x (by simp) c hc).1) e2
      have p2 : P s2 := hP x (by simp) s s2 hs (by simp [Abs.steps, e1, e2])
      obtain ⟨n1, n2, n3⟩ := (ih s2 p2 t2).1 hs'
      have hx := (hok x (by simp) s1 (hPn x (by simp) _ _ hs e1) t1 (hk _ e1)).1 ⟨s2, e2⟩
      refine ⟨?_, ?_, ?_⟩
      · rw [List.map_cons, List.nodup_cons]
        refine ⟨?_, n1⟩
        intro hm
        obtain ⟨y, hy, hyx⟩ := List.mem_map.1 hm
        exact n2 y hy ((hk2 _ _ e1 e2 _).2 (.inr hyx))
      · intro y hy
        rcases List.mem_cons.1 hy with rfl | hy
        · exact node _ e1
        · exact fun hm => n2 y hy ((hk2 _ _ e1 e2 _).2 (.inl hm))
      · intro y hy
        rcases List.mem_cons.1 hy with rfl | hy
        · exact hx
        · exact n3 y hy
    · rintro ⟨n1, n2, n3⟩
      rw [List.map_cons, List.nodup_cons] at n1
      have e1 : ∃ s1, s.step (.node (graphId t (nm x)) (d x) t) = some s1 := by
        have := n2 x (by simp)
        rw [← Dict.has_iff_mem_keys] at this
        simp [Abs.step, this]
      obtain ⟨s1, e1⟩ := e1
      have t1 : Typed s1 := ht.step e1 ⟨_, rfl⟩
      obtain ⟨s2, e2⟩ := (hok x (by simp) s1 (hPn x (by simp) _ _ hs e1) t1 (hk _ e1)).2 (n3 x (by simp))
      have t2 : Typed s2 := t1.steps (fun c hc => (hrest x (by simp) c hc).1) e2
      have p2 : P s2 := hP x (by simp) s s2 hs (by simp [Abs.steps, e1, e2])
      refine ⟨s1, e1, s2, e2, (ih s2 p2 t2).2 ⟨n1.2, ?_, fun y hy => n3 y (by simp [hy])⟩⟩
      intro y hy hm
      rcases (hk2 _ _ e1 e2 _).1 hm with hm | hm
      · exact n2 y (by simp [hy]) hm
      · exact n1.1 (List.mem_map.2 ⟨y, hy, hm⟩)

end Abs

namespace GShape
open Abs

theorem map_zipIdx_fst {α β : Type} (f : α → β) (l : List α) (k : Nat) : (l.zipIdx k).map (fun p => f p.1) = l.map f := by
  induction l generalizing k with
  | nil => rfl
  | cons a l ih => simp [List.zipIdx_cons, ih]

theorem mem_zipIdx_fst {α : Type} (l : List α) (a : α) : a ∈ l ↔ ∃ i, (a, i) ∈ l.zipIdx := by
  have := map_zipIdx_fst (fun x : α => x) l 0
  rw [List.map_id'] at this
  constructor
  · intro h
    rw [← this] at h
    obtain ⟨⟨b, i⟩, hb, rfl⟩ := List.mem_map.1 h
    exact ⟨i, hb⟩
  · rintro ⟨i, h⟩
    rw [← this]
    exact List.mem_map.2 ⟨_, h, rfl⟩

theorem forall_zipIdx {α : Type} (l : List α) (p : α → Prop) : (∀ x ∈ l.zipIdx, p x.1) ↔ ∀ a ∈ l, p a := by
  constructor
  · intro h a ha
    obtain ⟨i, hi⟩ := (mem_zipIdx_fst l a).1 ha
    exact h _ hi
  · intro h x hx
    exact h _ ((mem_zipIdx_fst l x.1).2 ⟨x.2, hx⟩)

theorem ne_types {t u : NType} (h : t ≠ u) (a b : Str) : graphId t a ≠ graphId u b := fun e => h (graphId_inj e).1

/-- bones: names are new and different, no bone is its own parent -/
theorem bones_ok (bs : List (GBone F)) (s : Abs F) (ht : Typed s) :
    (∃ s', s.steps (bs.zipIdx.flatMap boneCmds) = some s') ↔
      (bs.map (·.name)).Nodup ∧ (∀ b ∈ bs, graphId .bone b.name ∉ Dict.keys s.nodes) ∧ ∀ b ∈ bs, b.parent ≠ b.name := by
  have := phase (fun p : GBone F × Nat => p.1.name) .bone (fun p => ((p.2 : Int), p.1.v))
    (fun p => [.from_ (graphId .bone p.1.parent) (graphId .bone p.1.name)]) (fun p => p.1.parent ≠ p.1.name) (fun _ => True)
    bs.zipIdx (fun _ _ _ _ _ _ => trivial)
    (by intro x _ c hc
        simp only [List.mem_cons, List.not_mem_nil, or_false] at hc
        subst hc
        exact ⟨trivial, fun n => by simp [creates]⟩)
    (by
      intro x _ s _ ht hk
      constructor
      · rintro ⟨s', h⟩ e
        obtain ⟨k, h1, _⟩ := steps_cons h
        simp only [Abs.step, e, (Dict.has_iff_mem_keys _ _).2 hk, if_true] at h1
        exact (link_some h1).2.2.2 rfl
      · intro hne
        simp only [Abs.steps, Abs.step]
        split
        · rename_i s' h
          exact ⟨s', rfl⟩
        · rename_i h
          exfalso
          split at h
          · rename_i hh
            rw [ht.link ((Dict.has_iff_mem_keys _ _).1 hh) hk (by decide) (fun e => hne (graphId_inj'.1 e))] at h
            cases h
          · cases h)
    (fun _ _ _ _ _ _ => trivial) s trivial ht
  rw [show bs.zipIdx.flatMap boneCmds = _ from rfl] at *
  refine Iff.trans this ?_
  rw [map_zipIdx_fst (fun b : GBone F => b.name), forall_zipIdx bs (fun b => graphId .bone b.name ∉ Dict.keys s.nodes),
    forall_zipIdx bs (fun b => b.parent ≠ b.name)]

/-- linking from a node that may be missing -/
theorem from_ok {s : Abs F} (ht : Typed s) {t u : NType} {p c : Str} (hc : graphId u c ∈ Dict.keys s.nodes)
    (hf : u ∉ (spineFactory t).2) (hne : t ≠ u) :
    ∃ s', s.step (.from_ (graphId t p) (graphId u c)) = some s' := by
  simp only [Abs.step]
  split
  · rename_i hh
    exact ⟨_, ht.link ((Dict.has_iff_mem_keys _ _).1 hh) hc hf (ne_types hne _ _)⟩
  · exact ⟨_, rfl⟩

theorem to_ok {s : Abs F} (ht : Typed s) {t u : NType} {p c : Str} (hp : graphId t p ∈ Dict.keys s.nodes)
    (hf : u ∉ (spineFactory t).2) (hne : t ≠ u) :
    ∃ s', s.step (.to_ (graphId t p) (graphId u c)) = some s' := by
  simp only [Abs.step]
  split
  · rename_i hh
    exact ⟨_, ht.link hp ((Dict.has_iff_mem_keys _ _).1 hh) hf (ne_types hne _ _)⟩
  · exact ⟨_, rfl⟩

theorem opt_ok (s : Abs F) (i : Str) (d : Int × JVal F) (t : NType) : ∃ s', s.step (.opt i d t) = some s' := by
  simp only [Abs.step]; split <;> exact ⟨_, rfl⟩

theorem atts_ok (n : Str) (l : List (Str × Str × JVal F)) : ∀ s : Abs F, Typed s → graphId .slot n ∈ Dict.keys s.nodes →
    ∃ s', s.steps (l.flatMap (attCmds (graphId .slot n))) = some s' := by
  induction l with
  | nil => intro s _ _; exact ⟨s, rfl⟩
  | cons a l ih =>
    intro s ht hk
    obtain ⟨s1, e1⟩ := opt_ok s (graphId .attachment a.1) (-1, a.2.2) .attachment
    obtain ⟨s2, e2⟩ := opt_ok s1 (graphId .image a.2.1) (-1, .dict []) .image
    have t1 := ht.step e1 ⟨_, rfl⟩
    have t2 := t1.step e2 ⟨_, rfl⟩
    have k1 : graphId .attachment a.1 ∈ Dict.keys s1.nodes := (step_keys e1 _).2 (.inr rfl)
    have k1' := (step_keys e2 _).2 (.inl k1)
    have k2 : graphId .image a.2.1 ∈ Dict.keys s2.nodes := (step_keys e2 _).2 (.inr rfl)
    have e3 := t2.link k1' k2 (by decide) (ne_types (by decide) _ _)
    obtain ⟨s3, hs3⟩ : ∃ s3, s3 = { s2 with edges := s2.edges ++ [(graphId .attachment a.1, graphId .image a.2.1)] } := ⟨_, rfl⟩
    rw [← hs3] at e3
    have t3 : Typed s3 := by rw [hs3]; exact t2
    have k3 : graphId .slot n ∈ Dict.keys s3.nodes := by
      rw [hs3]; exact (step_keys e2 _).2 (.inl ((step_keys e1 _).2 (.inl hk)))
    have k3' : graphId .attachment a.1 ∈ Dict.keys s3.nodes := by rw [hs3]; exact k1'
    have e4 := t3.link k3 k3' (by decide) (ne_types (by decide) _ _)
    obtain ⟨s4, hs4⟩ : ∃ s4, s4 = { s3 with edges := s3.edges ++ [(graphId .slot n, graphId .attachment a.1)] } := ⟨_, rfl⟩
    rw [← hs4] at e4
    have t4 : Typed s4 := by rw [hs4]; exact t3
    have k4 : graphId .slot n ∈ Dict.keys s4.nodes := by rw [hs4]; exact k3
    obtain ⟨s', e5⟩ := ih s4 t4 k4
    refine ⟨s', ?_⟩
    rw [List.flatMap_cons, steps_append]
    have : s.steps (attCmds (graphId .slot n) a) = some s4 := by
      simp only [attCmds, Plan.attCmds, Abs.steps, e1, e2]
      have e3' : s2.step (.edge (graphId .attachment a.1) (graphId .image a.2.1)) = some s3 := e3
      have e4' : s3.step (.edge (graphId .slot n) (graphId .attachment a.1)) = some s4 := e4
      simp only [e3', e4']
    rw [this]
    exact e5

theorem att_typed (n : Str) (l : List (Str × Str × JVal F)) (c : Cmd F) (hc : c ∈ l.flatMap (attCmds (graphId .slot n))) :
    CmdTyped c ∧ ∀ t, t ≠ .attachment → t ≠ .image → ∀ m, creates c ≠ some (graphId t m) := by
  obtain ⟨a, _, hc⟩ := List.mem_flatMap.1 hc
  simp only [attCmds, Plan.attCmds, List.mem_cons, List.not_mem_nil, or_false] at hc
  rcases hc with rfl | rfl | rfl | rfl
  · refine ⟨⟨_, rfl⟩, fun t h1 h2 m h => ?_⟩
    simp only [creates, Option.some.injEq] at h
    exact h1 (graphId_inj h).1.symm
  · refine ⟨⟨_, rfl⟩, fun t h1 h2 m h => ?_⟩
    simp only [creates, Option.some.injEq] at h
    exact h2 (graphId_inj h).1.symm
  · exact ⟨trivial, fun t _ _ m h => by simp [creates] at h⟩
  · exact ⟨trivial, fun t _ _ m h => by simp [creates] at h⟩

theorem slots_ok (ss : List (GSlot F)) (s : Abs F) (ht : Typed s) :
    (∃ s', s.steps (ss.zipIdx.flatMap slotCmds) = some s') ↔
      (ss.map (·.name)).Nodup ∧ (∀ b ∈ ss, graphId .slot b.name ∉ Dict.keys s.nodes) := by
  have := phase (fun p : GSlot F × Nat => p.1.name) .slot (fun p => ((p.2 : Int), p.1.v))
    (fun p => .from_ (graphId .bone p.1.bone) (graphId .slot p.1.name) :: p.1.atts.flatMap (attCmds (graphId .slot p.1.name)))
    (fun p => True) (fun _ => True)
    ss.zipIdx (fun _ _ _ _ _ _ => trivial)
    (by intro x _ c hc
        rcases List.mem_cons.1 hc with rfl | hc
        · exact ⟨trivial, fun n => by simp [creates]⟩
        · have := att_typed x.1.name _ c hc
          exact ⟨this.1, this.2 .slot (by decide) (by decide)⟩)
    (by
      intro x _ s _ ht hk
      simp only [iff_true]
      obtain ⟨s1, e1⟩ := from_ok (t := .bone) (p := x.1.bone) ht hk (by decide) (by decide)
      have t1 : Typed s1 := ht.step e1 trivial
      obtain ⟨s2, e2⟩ := atts_ok x.1.name x.1.atts s1 t1 ((step_keys e1 _).2 (.inl hk))
      exact ⟨s2, by simp [Abs.steps, e1, e2]⟩)
    (fun _ _ _ _ _ _ => trivial) s trivial ht
  refine Iff.trans this ?_
  rw [map_zipIdx_fst (fun b : GSlot F => b.name), forall_zipIdx ss (fun b => graphId .slot b.name ∉ Dict.keys s.nodes)]
  simp

theorem ikLinks_ok (n : Str) (bs : List Str) (t : List Str) : ∀ s : Abs F, Typed s → graphId .ik n ∈ Dict.keys s.nodes →
    ∃ s', s.steps (bs.map (fun b => .to_ (graphId .ik n) (graphId .bone b)) ++ t.map (fun t => .from_ (graphId .bone t) (graphId .ik n))) = some s' := by
  induction bs with
  | nil =>
    induction t with
    | nil => intro s _ _; exact ⟨s, rfl⟩
    | cons t ts ih =>
      intro s ht hk
      obtain ⟨s1, e1⟩ := from_ok (t := .bone) (p := t) ht hk (by decide) (by decide)
      obtain ⟨s2, e2⟩ := ih s1 (ht.step e1 trivial) ((step_keys e1 _).2 (.inl hk))
      refine ⟨s2, ?_⟩
      simp only [List.map_nil, List.nil_append] at e2
      simp [Abs.steps, e1, e2]
  | cons b bs ih =>
    intro s ht hk
    obtain ⟨s1, e1⟩ := to_ok (u := .bone) (c := b) ht hk (by decide) (by decide)
    obtain ⟨s2, e2⟩ := ih s1 (ht.step e1 trivial) ((step_keys e1 _).2 (.inl hk))
    exact ⟨s2, by simp [Abs.steps, e1, e2]⟩

theorem iks_ok (is : List (GIk F)) (s : Abs F) (ht : Typed s) :
    (∃ s', s.steps (is.zipIdx.flatMap ikCmds) = some s') ↔
      (is.map (·.name)).Nodup ∧ (∀ b ∈ is, graphId .ik b.name ∉ Dict.keys s.nodes) := by
  have := phase (fun p : GIk F × Nat => p.1.name) .ik (fun p => ((p.2 : Int), p.1.v))
    (fun p => (p.1.bones.map (fun b => .to_ (graphId .ik p.1.name) (graphId .bone b)) ++
      p.1.target.toList.map (fun t => .from_ (graphId .bone t) (graphId .ik p.1.name))))
    (fun p => True) (fun _ => True)
    is.zipIdx (fun _ _ _ _ _ _ => trivial)
    (by intro x _ c hc
        rcases List.mem_append.1 hc with hc | hc <;> obtain ⟨b, _, rfl⟩ := List.mem_map.1 hc <;>
          exact ⟨trivial, fun n => by simp [creates]⟩)
    (by
      intro x _ s _ ht hk
      simp only [iff_true]
      exact ikLinks_ok x.1.name x.1.bones x.1.target.toList s ht hk)
    (fun _ _ _ _ _ _ => trivial) s trivial ht
  refine Iff.trans this ?_
  rw [map_zipIdx_fst (fun b : GIk F => b.name), forall_zipIdx is (fun b => graphId .ik b.name ∉ Dict.keys s.nodes)]
  simp

/-! ### The final state -/

theorem creates_bone (bs : List (GBone F)) (x : Str) :
    (∃ c ∈ bs.zipIdx.flatMap boneCmds, creates c = some x) ↔ ∃ b ∈ bs, x = graphId .bone b.name := by
  simp only [List.mem_flatMap]
  constructor
  · rintro ⟨c, ⟨p, hp, hc⟩, h⟩
    simp only [boneCmds, List.mem_cons, List.not_mem_nil, or_false] at hc
    rcases hc with rfl | rfl
    · exact ⟨p.1, (mem_zipIdx_fst _ _).2 ⟨_, hp⟩, by simpa [creates, eq_comm] using h⟩
    · simp [creates] at h
  · rintro ⟨b, hb, rfl⟩
    obtain ⟨i, hi⟩ := (mem_zipIdx_fst _ _).1 hb
    exact ⟨_, ⟨_, hi, by simp [boneCmds]; exact .inl rfl⟩, rfl⟩

theorem creates_slot (ss : List (GSlot F)) (x : Str) :
    (∃ c ∈ ss.zipIdx.flatMap slotCmds, creates c = some x) ↔
      ∃ b ∈ ss, x = graphId .slot b.name ∨ ∃ a ∈ b.atts, x = graphId .attachment a.1 ∨ x = graphId .image a.2.1 := by
  simp only [List.mem_flatMap]
  constructor
  · rintro ⟨c, ⟨p, hp, hc⟩, h⟩
    refine ⟨p.1, (mem_zipIdx_fst _ _).2 ⟨_, hp⟩, ?_⟩
    simp only [slotCmds, List.mem_cons, List.mem_flatMap, attCmds, Plan.attCmds, List.not_mem_nil, or_false] at hc
    rcases hc with rfl | rfl | ⟨a, ha, rfl | rfl | rfl | rfl⟩ <;> simp only [creates, Option.some.injEq, reduceCtorEq] at h
    · exact .inl h.symm
    · exact .inr ⟨a, ha, .inl h.symm⟩
    · exact .inr ⟨a, ha, .inr h.symm⟩
  · rintro ⟨b, hb, h⟩
    obtain ⟨i, hi⟩ := (mem_zipIdx_fst _ _).1 hb
    rcases h with rfl | ⟨a, ha, rfl | rfl⟩
    · exact ⟨_, ⟨_, hi, List.mem_cons_self⟩, rfl⟩
    · exact ⟨_, ⟨_, hi, List.mem_cons_of_mem _ (List.mem_cons_of_mem _ (List.mem_flatMap.2 ⟨a, ha, List.mem_cons_self⟩))⟩, rfl⟩
    · exact ⟨_, ⟨_, hi, List.mem_cons_of_mem _ (List.mem_cons_of_mem _ (List.mem_flatMap.2 ⟨a, ha, List.mem_cons_of_mem _ List.mem_cons_self⟩))⟩, rfl⟩

theorem creates_ik (is : List (GIk F)) (x : Str) :
    (∃ c ∈ is.zipIdx.flatMap ikCmds, creates c = some x) ↔ ∃ b ∈ is, x = graphId .ik b.name := by
  simp only [List.mem_flatMap]
  constructor
  · rintro ⟨c, ⟨p, hp, hc⟩, h⟩
    refine ⟨p.1, (mem_zipIdx_fst _ _).2 ⟨_, hp⟩, ?_⟩
    simp only [ikCmds, List.mem_cons, List.mem_append, List.mem_map] at hc
    rcases hc with rfl | ⟨_, _, rfl⟩ | ⟨_, _, rfl⟩ <;> simp only [creates, Option.some.injEq, reduceCtorEq] at h
    exact h.symm
  · rintro ⟨b, hb, rfl⟩
    obtain ⟨i, hi⟩ := (mem_zipIdx_fst _ _).1 hb
    exact ⟨_, ⟨_, hi, List.mem_cons_self⟩, rfl⟩

/-- the conditions under which building succeeds -/
structure Ok (g : GShape F) : Prop where
  bones : (g.bones.map (·.name)).Nodup
  slots : (g.slots.map (·.name)).Nodup
  iks : (g.iks.map (·.name)).Nodup
  parents : ∀ b ∈ g.bones, b.parent ≠ b.name

theorem bone_typed (bs : List (GBone F)) (c : Cmd F) (hc : c ∈ bs.zipIdx.flatMap boneCmds) : CmdTyped c := by
  obtain ⟨p, _, hc⟩ := List.mem_flatMap.1 hc
  simp only [boneCmds, List.mem_cons, List.not_mem_nil, or_false] at hc
  rcases hc with rfl | rfl
  · exact ⟨_, rfl⟩
  · trivial

theorem slot_typed (bs : List (GSlot F)) (c : Cmd F) (hc : c ∈ bs.zipIdx.flatMap slotCmds) : CmdTyped c := by
  obtain ⟨p, _, hc⟩ := List.mem_flatMap.1 hc
  rcases List.mem_cons.1 hc with rfl | hc
  · exact ⟨_, rfl⟩
  · rcases List.mem_cons.1 hc with rfl | hc
    · trivial
    · exact (att_typed p.1.name _ c hc).1

theorem steps_ok (g : GShape F) : (∃ s, Abs.empty.steps g.cmds = some s) ↔ Ok g := by
  simp only [cmds, steps_append]
  constructor
  · rintro ⟨s, h⟩
    cases h1 : Abs.empty.steps (g.bones.zipIdx.flatMap boneCmds) with
    | none => rw [h1] at h; cases h
    | some s1 =>
      simp only [h1, Option.bind_some] at h
      have t1 := typed_empty.steps (bone_typed g.bones) h1
      cases h2 : s1.steps (g.slots.zipIdx.flatMap slotCmds) with
      | none => rw [h2] at h; cases h
      | some s2 =>
        simp only [h2, Option.bind_some] at h
        have t2 := t1.steps (slot_typed g.slots) h2
        have b := (bones_ok g.bones _ typed_empty).1 ⟨s1, h1⟩
        have s' := (slots_ok g.slots _ t1).1 ⟨s2, h2⟩
        have i := (iks_ok g.iks _ t2).1 ⟨s, h⟩
        exact ⟨b.1, s'.1, i.1, b.2.2⟩
  · intro h
    obtain ⟨s1, h1⟩ := (bones_ok g.bones (Abs.empty : Abs F) typed_empty).2
      ⟨h.bones, by simp [Abs.empty, Dict.keys], h.parents⟩
    have t1 := typed_empty.steps (bone_typed g.bones) h1
    have k1 : ∀ x, x ∈ Dict.keys s1.nodes ↔ ∃ b ∈ g.bones, x = graphId .bone b.name := by
      intro x; rw [steps_keys h1, creates_bone]; simp [Abs.empty, Dict.keys]
    obtain ⟨s2, h2⟩ := (slots_ok g.slots s1 t1).2 ⟨h.slots, by
      intro b _ hm
      obtain ⟨b', _, e⟩ := (k1 _).1 hm
      cases (graphId_inj e).1⟩
    have t2 := t1.steps (slot_typed g.slots) h2
    obtain ⟨s3, h3⟩ := (iks_ok g.iks s2 t2).2 ⟨h.iks, by
      intro b _ hm
      rw [steps_keys h2, k1, creates_slot] at hm
      rcases hm with ⟨b', _, e⟩ | ⟨b', _, e | ⟨a, _, e | e⟩⟩ <;> cases (graphId_inj e).1⟩
    exact ⟨s3, by simp [h1, h2, h3]⟩

/-- nodes of the final state -/
theorem final_keys {g : GShape F} {s : Abs F} (h : Abs.empty.steps g.cmds = some s) (x : Str) :
    x ∈ Dict.keys s.nodes ↔ (∃ b ∈ g.bones, x = graphId .bone b.name) ∨
      (∃ b ∈ g.slots, x = graphId .slot b.name ∨ ∃ a ∈ b.atts, x = graphId .attachment a.1 ∨ x = graphId .image a.2.1) ∨
      (∃ b ∈ g.iks, x = graphId .ik b.name) := by
  rw [steps_keys h]
  simp only [cmds, List.mem_append, or_and_right, exists_or, creates_bone, creates_slot, creates_ik]
  simp [Abs.empty, Dict.keys]

theorem filterMap_flatMap_single {α β γ : Type} (f : α → List β) (e : β → Option γ) (h : α → γ) (l : List α)
    (hf : ∀ x ∈ l, (f x).filterMap e = [h x]) : (l.flatMap f).filterMap e = l.map h := by
  induction l with
  | nil => rfl
  | cons a l ih =>
    rw [List.flatMap_cons, List.filterMap_append, hf a (by simp), ih (fun x hx => hf x (by simp [hx]))]
    rfl

theorem filterMap_flatMap_nil {α β γ : Type} (f : α → List β) (e : β → Option γ) (l : List α)
    (hf : ∀ x ∈ l, (f x).filterMap e = []) : (l.flatMap f).filterMap e = [] := by
  induction l with
  | nil => rfl
  | cons a l ih =>
    rw [List.flatMap_cons, List.filterMap_append, hf a (by simp), ih (fun x hx => hf x (by simp [hx]))]
    rfl

theorem atts_entry (n : Str) (l : List (Str × Str × JVal F)) (t : NType) :
    (l.flatMap (attCmds (graphId .slot n))).filterMap (entry t) = [] := by
  apply filterMap_flatMap_nil
  intro a _
  simp [attCmds, Plan.attCmds, entry]

theorem entries (g : GShape F) (t : NType) (b : List (Str × (Int × JVal F))) (s : List (Str × (Int × JVal F))) (i : List (Str × (Int × JVal F)))
    (hb : (g.bones.zipIdx.flatMap boneCmds).filterMap (entry t) = b)
    (hs : (g.slots.zipIdx.flatMap slotCmds).filterMap (entry t) = s)
    (hi : (g.iks.zipIdx.flatMap ikCmds).filterMap (entry t) = i) : g.cmds.filterMap (entry t) = b ++ (s ++ i) := by
  simp only [cmds, List.filterMap_append, hb, hs, hi]

theorem bones_entry (bs : List (GBone F)) (t : NType) : (bs.zipIdx.flatMap boneCmds).filterMap (entry t) =
    if t = .bone then bs.zipIdx.map (fun p => (graphId .bone p.1.name, ((p.2 : Int), p.1.v))) else [] := by
  by_cases h : t = .bone
  · subst h
    rw [if_pos rfl]
    apply filterMap_flatMap_single
    intro x _
    simp [boneCmds, entry]
  · rw [if_neg h]
    apply filterMap_flatMap_nil
    intro x _
    simp [boneCmds, entry, Ne.symm h]

theorem slots_entry (bs : List (GSlot F)) (t : NType) : (bs.zipIdx.flatMap slotCmds).filterMap (entry t) =
    if t = .slot then bs.zipIdx.map (fun p => (graphId .slot p.1.name, ((p.2 : Int), p.1.v))) else [] := by
  by_cases h : t = .slot
  · subst h
    rw [if_pos rfl]
    apply filterMap_flatMap_single
    intro x _
    rw [slotCmds, List.filterMap_cons, List.filterMap_cons, atts_entry]
    simp [entry]
  · rw [if_neg h]
    apply filterMap_flatMap_nil
    intro x _
    rw [slotCmds, List.filterMap_cons, List.filterMap_cons, atts_entry]
    simp [entry, Ne.symm h]

theorem iks_entry (bs : List (GIk F)) (t : NType) : (bs.zipIdx.flatMap ikCmds).filterMap (entry t) =
    if t = .ik then bs.zipIdx.map (fun p => (graphId .ik p.1.name, ((p.2 : Int), p.1.v))) else [] := by
  by_cases h : t = .ik
  · subst h
    rw [if_pos rfl]
    apply filterMap_flatMap_single
    intro x _
    simp [ikCmds, entry]
  · rw [if_neg h]
    apply filterMap_flatMap_nil
    intro x _
    simp [ikCmds, entry, Ne.symm h]

theorem cmds_optType (g : GShape F) {c : Cmd F} (hc : c ∈ g.cmds) {t : NType} (h1 : t ≠ .attachment) (h2 : t ≠ .image) :
    optType c ≠ some t := by
  intro h
  simp only [cmds, List.mem_append, List.mem_flatMap] at hc
  rcases hc with ⟨p, _, hc⟩ | ⟨p, _, hc⟩ | ⟨p, _, hc⟩
  · simp only [boneCmds, List.mem_cons, List.not_mem_nil, or_false] at hc
    rcases hc with rfl | rfl <;> simp [optType] at h
  · simp only [slotCmds, List.mem_cons, List.mem_flatMap, attCmds, Plan.attCmds, List.not_mem_nil, or_false] at hc
    rcases hc with rfl | rfl | ⟨a, ha, rfl | rfl | rfl | rfl⟩ <;> simp only [optType, Option.some.injEq, reduceCtorEq] at h
    · exact h1 h.symm
    · exact h2 h.symm
  · simp only [ikCmds, List.mem_cons, List.mem_append, List.mem_map] at hc
    rcases hc with rfl | ⟨_, _, rfl⟩ | ⟨_, _, rfl⟩ <;> simp [optType] at h

/-- id and data of the nodes of one type, in insertion order -/
theorem final_ofType {g : GShape F} {s : Abs F} (h : Abs.empty.steps g.cmds = some s) {t : NType}
    (h1 : t ≠ .attachment) (h2 : t ≠ .image) : s.ofType t =
      (if t = .bone then g.bones.zipIdx.map (fun p => (graphId .bone p.1.name, ((p.2 : Int), p.1.v))) else []) ++
      ((if t = .slot then g.slots.zipIdx.map (fun p => (graphId .slot p.1.name, ((p.2 : Int), p.1.v))) else []) ++
       (if t = .ik then g.iks.zipIdx.map (fun p => (graphId .ik p.1.name, ((p.2 : Int), p.1.v))) else [])) := by
  rw [steps_ofType h t (fun c hc => cmds_optType g hc h1 h2),
    entries g t _ _ _ (bones_entry _ _) (slots_entry _ _) (iks_entry _ _)]
  simp [Abs.empty, Abs.ofType]

/-! ### Edges of the final state -/

theorem steps_cons_some {s : Abs F} {c : Cmd F} {cs : List (Cmd F)} {k s' : Abs F} (h1 : s.step c = some k)
    (h2 : k.steps cs = some s') : s.steps (c :: cs) = some s' := by simp [Abs.steps, h1, h2]

/-- edges between bones: the parent has to come first -/
theorem bones_edges (bs : List (GBone F)) : ∀ (k : Nat) {s s' : Abs F},
    s.steps ((bs.zipIdx k).flatMap boneCmds) = some s' → ∀ e, e ∈ s'.edges ↔ e ∈ s.edges ∨
      ∃ pre b post, bs = pre ++ b :: post ∧ e = (graphId .bone b.parent, graphId .bone b.name) ∧
        (graphId .bone b.parent ∈ Dict.keys s.nodes ∨ b.parent ∈ pre.map (·.name)) := by
  induction bs with
  | nil =>
    intro k s s' h e
    injection h with h; subst h
    simp
  | cons b bs ih =>
    intro k s s' h e
    rw [List.zipIdx_cons, List.flatMap_cons, steps_append] at h
    cases h1 : s.steps (boneCmds (b, k)) with
    | none => rw [h1] at h; cases h
    | some s1 =>
      rw [h1, Option.bind_some] at h
      have h1' := h1
      obtain ⟨k1, e1, h2⟩ := steps_cons h1
      obtain ⟨k2, e2, h3⟩ := steps_cons h2
      injection h3 with h3; subst h3
      have hk1 : ∀ x, x ∈ Dict.keys k1.nodes ↔ x ∈ Dict.keys s.nodes ∨ x = graphId .bone b.name := by
        intro x; rw [step_keys e1]; simp [creates, eq_comm]
      have hk2 : ∀ x, x ∈ Dict.keys k2.nodes ↔ x ∈ Dict.keys s.nodes ∨ x = graphId .bone b.name := by
        intro x; rw [step_keys e2, hk1]; simp [creates]
      have hne : b.parent ≠ b.name := by
        intro hh
        simp only [Abs.step, hh, (Dict.has_iff_mem_keys _ _).2 ((hk1 _).2 (.inr rfl)), if_true] at e2
        exact (link_some e2).2.2.2 rfl
      have he2 : ∀ e, e ∈ k2.edges ↔ e ∈ s.edges ∨
          (e = (graphId .bone b.parent, graphId .bone b.name) ∧ graphId .bone b.parent ∈ Dict.keys s.nodes) := by
        intro e
        rw [step_edges e2, step_edges e1]
        simp only [links, fires, reduceCtorEq, false_and, or_false, Option.some.injEq, hk1, graphId_inj', hne]
        rw [eq_comm (a := e)]
      rw [ih (k + 1) h e, he2]
      constructor
      · rintro ((h | ⟨h, hp⟩) | ⟨pre, c, post, rfl, h, hp⟩)
        · exact .inl h
        · exact .inr ⟨[], b, bs, rfl, h, .inl hp⟩
        · refine .inr ⟨b :: pre, c, post, rfl, h, ?_⟩
          rw [hk2, graphId_inj'] at hp
          rcases hp with (hp | hp) | hp
          · exact .inl hp
          · exact .inr (by simp [hp])
          · exact .inr (by simp only [List.map_cons, List.mem_cons]; exact .inr hp)
      · rintro (h | ⟨pre, c, post, hbs, hE, hp⟩)
        · exact .inl (.inl h)
        · cases pre with
          | nil =>
            simp only [List.nil_append, List.cons.injEq] at hbs
            obtain ⟨rfl, rfl⟩ := hbs
            simp only [List.map_nil, List.not_mem_nil, or_false] at hp
            exact .inl (.inr ⟨hE, hp⟩)
          | cons q pre =>
            simp only [List.cons_append, List.cons.injEq] at hbs
            obtain ⟨rfl, rfl⟩ := hbs
            refine .inr ⟨pre, c, post, rfl, hE, ?_⟩
            rw [hk2, graphId_inj']
            simp only [List.map_cons, List.mem_cons] at hp
            rcases hp with hp | hp | hp
            · exact .inl (.inl hp)
            · exact .inl (.inr hp)
            · exact .inr hp

/-- the edges a document asks for -/
inductive Link (g : GShape F) : Str → Str → Prop
  | bone {pre b post} : g.bones = pre ++ b :: post → b.parent ∈ pre.map (·.name) →
      Link g (graphId .bone b.parent) (graphId .bone b.name)
  | slot {s} : s ∈ g.slots → s.bone ∈ g.bones.map (·.name) → Link g (graphId .bone s.bone) (graphId .slot s.name)
  | att {s a} : s ∈ g.slots → a ∈ s.atts → Link g (graphId .slot s.name) (graphId .attachment a.1)
  | image {s a} : s ∈ g.slots → a ∈ s.atts → Link g (graphId .attachment a.1) (graphId .image a.2.1)
  | ikBone {i b} : i ∈ g.iks → b ∈ i.bones → b ∈ g.bones.map (·.name) → Link g (graphId .ik i.name) (graphId .bone b)
  | ikTarget {i t} : i ∈ g.iks → i.target = some t → t ∈ g.bones.map (·.name) → Link g (graphId .bone t) (graphId .ik i.name)

theorem links_slot (ss : List (GSlot F)) (c : Cmd F) (hc : c ∈ ss.zipIdx.flatMap slotCmds) (e : Str × Str)
    (hl : links c = some e) : ∃ s ∈ ss, e = (graphId .bone s.bone, graphId .slot s.name) ∨
      ∃ a ∈ s.atts, e = (graphId .slot s.name, graphId .attachment a.1) ∨ e = (graphId .attachment a.1, graphId .image a.2.1) := by
  obtain ⟨p, hp, hc⟩ := List.mem_flatMap.1 hc
  refine ⟨p.1, (mem_zipIdx_fst _ _).2 ⟨_, hp⟩, ?_⟩
  simp only [slotCmds, List.mem_cons, List.mem_flatMap, attCmds, Plan.attCmds, List.not_mem_nil, or_false] at hc
  rcases hc with rfl | rfl | ⟨a, ha, rfl | rfl | rfl | rfl⟩ <;> simp only [links, Option.some.injEq, reduceCtorEq] at hl
  · exact .inl hl.symm
  · exact .inr ⟨a, ha, .inr hl.symm⟩
  · exact .inr ⟨a, ha, .inl hl.symm⟩

theorem links_ik (is : List (GIk F)) (c : Cmd F) (hc : c ∈ is.zipIdx.flatMap ikCmds) (e : Str × Str)
    (hl : links c = some e) : ∃ i ∈ is, (∃ b ∈ i.bones, e = (graphId .ik i.name, graphId .bone b)) ∨
      ∃ t, i.target = some t ∧ e = (graphId .bone t, graphId .ik i.name) := by
  obtain ⟨p, hp, hc⟩ := List.mem_flatMap.1 hc
  refine ⟨p.1, (mem_zipIdx_fst _ _).2 ⟨_, hp⟩, ?_⟩
  simp only [ikCmds, List.mem_cons, List.mem_append, List.mem_map] at hc
  rcases hc with rfl | ⟨b, hb, rfl⟩ | ⟨t, ht, rfl⟩ <;> simp only [links, Option.some.injEq, reduceCtorEq] at hl
  · exact .inl ⟨b, hb, hl.symm⟩
  · exact .inr ⟨t, by simpa using ht, hl.symm⟩

theorem final_edges {g : GShape F} {s : Abs F} (h : Abs.empty.steps g.cmds = some s)
    (hs : Sound s) (p c : Str) : (p, c) ∈ s.edges ↔ Link g p c := by
  have hkey := final_keys h
  have h' := h
  simp only [cmds] at h
  rw [steps_append] at h
  cases h1 : (Abs.empty : Abs F).steps (g.bones.zipIdx.flatMap boneCmds) with
  | none => rw [h1] at h; cases h
  | some s1 =>
    rw [h1, Option.bind_some] at h
    have be := bones_edges g.bones 0 h1
    have k1 : ∀ x, x ∈ Dict.keys s1.nodes ↔ ∃ b ∈ g.bones, x = graphId .bone b.name := by
      intro x; rw [steps_keys h1, creates_bone]; simp [Abs.empty, Dict.keys]
    have bmem : ∀ n, graphId .bone n ∈ Dict.keys s.nodes → n ∈ g.bones.map (·.name) := by
      intro n hn
      rcases (hkey _).1 hn with ⟨b, hb, e⟩ | ⟨b, hb, e | ⟨a, _, e | e⟩⟩ | ⟨b, hb, e⟩
      · exact List.mem_map.2 ⟨b, hb, (graphId_inj'.1 e).symm⟩
      all_goals cases (graphId_inj e).1
    have bmem1 : ∀ n, n ∈ g.bones.map (·.name) → graphId .bone n ∈ Dict.keys s1.nodes := by
      intro n hn
      obtain ⟨b, hb, rfl⟩ := List.mem_map.1 hn
      exact (k1 _).2 ⟨b, hb, rfl⟩
    constructor
    · intro he
      rcases steps_edges_sound h (p, c) he with he1 | ⟨cm, hcm, hl⟩
      · rcases (be _).1 he1 with h0 | ⟨pre, b, post, e1, e2, hp⟩
        · simp [Abs.empty] at h0
        · injection e2 with e2 e3
          subst e2 e3
          refine .bone e1 (hp.elim (fun h => by simp [Abs.empty, Dict.keys] at h) id)
      · rcases List.mem_append.1 hcm with hcm | hcm
        · obtain ⟨sl, hsl, hx⟩ := links_slot _ cm hcm _ hl
          rcases hx with hx | ⟨a, ha, hx | hx⟩
          · injection hx with e1 e2
            subst e1 e2
            exact .slot hsl (bmem _ (hs.src _ he))
          · injection hx with e1 e2; subst e1 e2; exact .att hsl ha
          · injection hx with e1 e2; subst e1 e2; exact .image hsl ha
        · obtain ⟨i, hi, hx⟩ := links_ik _ cm hcm _ hl
          rcases hx with ⟨b, hb, hx⟩ | ⟨t, ht, hx⟩
          · injection hx with e1 e2; subst e1 e2; exact .ikBone hi hb (bmem _ (hs.tgt _ he))
          · injection hx with e1 e2; subst e1 e2; exact .ikTarget hi ht (bmem _ (hs.src _ he))
    · intro hl
      cases hl with
      | bone e1 hp =>
        refine steps_edges_mono h _ ((be _).2 (.inr ⟨_, _, _, e1, rfl, .inr hp⟩))
      | @slot sl h2 h3 =>
        obtain ⟨i, hi⟩ := (mem_zipIdx_fst _ _).1 h2
        exact steps_edges_complete h (c := .from_ (graphId .bone sl.bone) (graphId .slot sl.name))
          (List.mem_append.2 (.inl (List.mem_flatMap.2 ⟨_, hi, by simp [slotCmds]⟩))) rfl (bmem1 _ h3)
      | @att sl a h2 h3 =>
        obtain ⟨i, hi⟩ := (mem_zipIdx_fst _ _).1 h2
        exact steps_edges_complete h (c := .edge (graphId .slot sl.name) (graphId .attachment a.1))
          (List.mem_append.2 (.inl (List.mem_flatMap.2 ⟨_, hi, List.mem_cons_of_mem _ (List.mem_cons_of_mem _
            (List.mem_flatMap.2 ⟨a, h3, by simp [attCmds, Plan.attCmds]⟩))⟩))) rfl trivial
      | @image sl a h2 h3 =>
        obtain ⟨i, hi⟩ := (mem_zipIdx_fst _ _).1 h2
        exact steps_edges_complete h (c := .edge (graphId .attachment a.1) (graphId .image a.2.1))
          (List.mem_append.2 (.inl (List.mem_flatMap.2 ⟨_, hi, List.mem_cons_of_mem _ (List.mem_cons_of_mem _
            (List.mem_flatMap.2 ⟨a, h3, by simp [attCmds, Plan.attCmds]⟩))⟩))) rfl trivial
      | @ikBone ik b h2 h3 h4 =>
        obtain ⟨i, hi⟩ := (mem_zipIdx_fst _ _).1 h2
        exact steps_edges_complete h (c := .to_ (graphId .ik ik.name) (graphId .bone b))
          (List.mem_append.2 (.inr (List.mem_flatMap.2 ⟨_, hi, List.mem_cons_of_mem _ (List.mem_append.2 (.inl
            (List.mem_map.2 ⟨b, h3, rfl⟩)))⟩))) rfl (bmem1 _ h4)
      | @ikTarget ik t h2 h3 h4 =>
        obtain ⟨i, hi⟩ := (mem_zipIdx_fst _ _).1 h2
        exact steps_edges_complete h (c := .from_ (graphId .bone t) (graphId .ik ik.name))
          (List.mem_append.2 (.inr (List.mem_flatMap.2 ⟨_, hi, List.mem_cons_of_mem _ (List.mem_append.2 (.inr
            (List.mem_map.2 ⟨t, by simp [h3], rfl⟩)))⟩))) rfl (bmem1 _ h4)

end GShape
end Spine
