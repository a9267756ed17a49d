import Verif.Lemmas.AliasSafeCall
/-
Reachability: what a change outside of the reach of a reference leaves alone, and what a closed region contains.
-/
set_option linter.unusedSectionVars false
namespace Spine
namespace Alias
open M
variable {F : Type} {R : Nat → Prop}

theorem reach_closed {h : Heap F} (hc : Closed R h) {r : Ref F} {a : Nat} (h1 : Reach h r a) : ins R r → R a := by
  induction h1 with
  | here a => exact fun hr => ins_ptr.mp hr
  | there a o r b ho hr _ ih => exact fun hp => ih (hc a o (ins_ptr.mp hp) ho r hr)

theorem reach_trans {h : Heap F} {r : Ref F} {a : Nat} (h1 : Reach h r a) {o : Obj F} {s : Ref F} {b : Nat} :
    h[a]? = some o → s ∈ o.refs → Reach h s b → Reach h r b := by
  induction h1 with
  | here a => exact fun ho hs hb => .there a o s b ho hs hb
  | there a o' r' c ho' hr' _ ih => exact fun ho hs hb => .there a o' r' b ho' hr' (ih ho hs hb)

theorem reach_frame {h h' : Heap F} {r : Ref F} {a : Nat} (h1 : Reach h r a) : (∀ b, Reach h r b → h'[b]? = h[b]?) → Reach h' r a := by
  induction h1 with
  | here a => exact fun _ => .here a
  | there a o r b ho hr _ ih =>
    exact fun hf => .there a o r b ((hf a (.here a)).trans ho) hr (ih (fun c hc => hf c (.there a o r c ho hr hc)))

theorem reach_back {h h' : Heap F} {r : Ref F} {a : Nat} (h1 : Reach h' r a) : (∀ b, Reach h r b → h'[b]? = h[b]?) → Reach h r a := by
  induction h1 with
  | here a => exact fun _ => .here a
  | there a o r b ho hr _ ih =>
    intro hf
    have ho' : h[a]? = some o := (hf a (.here a)).symm.trans ho
    exact .there a o r b ho' hr (ih (fun c hc => hf c (.there a o r c ho' hr hc)))

/-- the reach of a reference only depends on the objects reached -/
theorem reach_same {h h' : Heap F} {r : Ref F} (hf : ∀ b, Reach h r b → h'[b]? = h[b]?) (a : Nat) : Reach h' r a ↔ Reach h r a :=
  ⟨fun h1 => reach_back h1 hf, fun h1 => reach_frame h1 hf⟩

theorem ed_reach_same {h h' : Heap F} {e : Ed F} (hf : ∀ b, e.Reach h b → h'[b]? = h[b]?) (a : Nat) : e.Reach h' a ↔ e.Reach h a := by
  unfold Ed.Reach
  rw [reach_same (fun b hb => hf b (.inl hb)), reach_same (fun b hb => hf b (.inr (.inl hb))),
    reach_same (fun b hb => hf b (.inr (.inr (.inl hb))))]
  have : ∀ p ∈ e.graph.nodes, (Reach h' p.2.data.2 a ↔ Reach h p.2.data.2 a) :=
    fun p hp => reach_same (fun b hb => hf b (.inr (.inr (.inr ⟨p, hp, hb⟩)))) a
  constructor
  · rintro (h1 | h1 | h1 | ⟨p, hp, h1⟩)
    · exact .inl h1
    · exact .inr (.inl h1)
    · exact .inr (.inr (.inl h1))
    · exact .inr (.inr (.inr ⟨p, hp, (this p hp).mp h1⟩))
  · rintro (h1 | h1 | h1 | ⟨p, hp, h1⟩)
    · exact .inl h1
    · exact .inr (.inl h1)
    · exact .inr (.inr (.inl h1))
    · exact .inr (.inr (.inr ⟨p, hp, (this p hp).mpr h1⟩))

theorem ed_reach_closed {h : Heap F} (hc : Closed R h) {e : Ed F} (he : ins R e) {a : Nat} (h1 : e.Reach h a) : R a := by
  rcases h1 with h1 | h1 | h1 | ⟨p, hp, h1⟩
  · exact reach_closed hc h1 he.1
  · exact reach_closed hc h1 he.2.1
  · exact reach_closed hc h1 he.2.2.1
  · exact reach_closed hc h1 (he.2.2.2 p hp)

theorem ins_reach {h : Heap F} {r : Ref F} : ins (Reach h r) r := fun a ha => ha ▸ .here a

theorem closed_reach {h : Heap F} {r : Ref F} : Closed (Reach h r) h :=
  fun _ _ ha ho _ hs b hb => reach_trans ha ho hs (hb ▸ .here b)

theorem ins_mono {R' : Nat → Prop} (hR : ∀ a, R a → R' a) {r : Ref F} (h : ins R r) : ins R' r := fun a ha => hR a (h a ha)

theorem ins_ed_reach {h : Heap F} {e : Ed F} : ins (e.Reach h) e :=
  ⟨fun a ha => .inl (ha ▸ .here a), fun a ha => .inr (.inl (ha ▸ .here a)), fun a ha => .inr (.inr (.inl (ha ▸ .here a))),
    fun p hp a ha => .inr (.inr (.inr ⟨p, hp, ha ▸ .here a⟩))⟩

theorem closed_ed_reach {h : Heap F} {e : Ed F} : Closed (e.Reach h) h := by
  intro a o ha ho s hs b hb
  subst hb
  rcases ha with h1 | h1 | h1 | ⟨p, hp, h1⟩
  · exact .inl (reach_trans h1 ho hs (.here b))
  · exact .inr (.inl (reach_trans h1 ho hs (.here b)))
  · exact .inr (.inr (.inl (reach_trans h1 ho hs (.here b))))
  · exact .inr (.inr (.inr ⟨p, hp, reach_trans h1 ho hs (.here b)⟩))

/-- a region together with the objects created between two heaps -/
def Plus (R : Nat → Prop) (h h' : Heap F) (a : Nat) : Prop := R a ∨ (h.length ≤ a ∧ a < h'.length)

theorem closed_plus {h h' : Heap F} (hc : Closed R h) : Closed (Plus R h h') h := by
  intro a o ha ho
  rcases ha with ha | ha
  · exact fun s hs b hb => .inl (hc a o ha ho s hs b hb)
  · rw [List.getElem?_eq_none ha.1] at ho
    cases ho

/-- a safe computation, applied to a closed region: only the region and new objects change, and only they are returned -/
theorem Safe.plus {α : Type} [Ins α] {m : M F α} {h : Heap F} {Q : Nat → Prop} (hm : ∀ R, (∀ a, Q a → R a) → Safe R m) (hc : Closed Q h) :
    (∀ a, ¬ Plus Q h (m h).2 a → (m h).2[a]? = h[a]?) ∧ Closed (Plus Q h (m h).2) (m h).2 ∧
      ∀ x, (m h).1 = .ok x → ins (Plus Q h (m h).2) x :=
  (hm (Plus Q h (m h).2) (fun _ ha => .inl ha)).run h (closed_plus hc) (fun _ h1 h2 => .inr ⟨h1, h2⟩)

section Read
variable [PyRt F]

theorem mapO_congr {α β : Type} {f g : α → Option β} {l : List α} (h : ∀ x ∈ l, f x = g x) : mapO f l = mapO g l := by
  induction l with
  | nil => rfl
  | cons x r ih =>
    unfold mapO
    rw [h x (by simp), ih (fun y hy => h y (by simp [hy]))]

theorem mapOD_congr {α β : Type} {f g : α → Option β} {d : Dict α} (h : ∀ p ∈ d, f p.2 = g p.2) : mapOD f d = mapOD g d :=
  mapO_congr (fun p hp => by rw [h p hp])

/-- the value of a reference only depends on the objects reached -/
theorem read_same {h h' : Heap F} (n : Nat) : ∀ {r : Ref F}, (∀ b, Reach h r b → h'[b]? = h[b]?) → read h' n r = read h n r := by
  induction n with
  | zero =>
    intro r hf
    unfold read
    cases r with
    | ptr a =>
      simp only [readStep]
      rw [hf a (.here a)]
    | _ => rfl
  | succ n ih =>
    intro r hf
    unfold read
    cases r with
    | ptr a =>
      simp only [readStep]
      rw [hf a (.here a)]
      cases ho : h[a]? with
      | none => rfl
      | some o =>
        cases o with
        | list l =>
          simp only
          exact congrArg _ (mapO_congr (fun x hx => ih (fun b hb => hf b (.there a _ x b ho hx hb))))
        | dict d =>
          simp only
          rw [mapOD_congr (fun p hp => ih (fun b hb => hf b (.there a _ p.2 b ho (List.mem_map.mpr ⟨p, hp, rfl⟩) hb)))]
        | inst t d =>
          simp only
          rw [mapOD_congr (fun p hp => ih (fun b hb => hf b (.there a _ p.2 b ho (List.mem_map.mpr ⟨p, hp, rfl⟩) hb)))]
    | _ => rfl
end Read

end Alias
end Spine
