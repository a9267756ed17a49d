import Verif.Spec.AliasFiles
import Verif.Lemmas.SimLive
import Verif.Lemmas.SimJson
/-
The objects of a document that has just been read: it reads back, nothing is shared, and building it is something a program may do.
-/
namespace Spine
namespace Alias
variable {F : Type}

/-- no two references lead to the same object -/
def Spread (l : List (Ref F)) : Prop := l.Pairwise (fun p q => ∀ b, p = .ptr b → q ≠ .ptr b)

/-- an object made of new objects, each used once -/
def NewObj (lo : Nat) (o : Obj F) : Prop := (∀ b, .ptr b ∈ o.refs → lo ≤ b) ∧ Spread o.refs

/-- every object from the address `lo` on -/
def NewFrom (lo : Nat) (h : Heap F) : Prop := ∀ a o, lo ≤ a → h[a]? = some o → NewObj lo o

theorem NewFrom.step {lo : Nat} {h : Heap F} {o : Obj F} (h1 : NewFrom lo h) (h2 : NewObj lo o) : NewFrom lo (h ++ [o]) := by
  intro a p hl ha
  rw [List.getElem?_append] at ha
  split at ha
  · exact h1 a p hl ha
  · rw [List.getElem?_singleton] at ha
    split at ha
    · cases ha; exact h2
    · cases ha

theorem NewFrom.join {h h' : Heap F} {t : List (Obj F)} {lo : Nat} (h1 : NewFrom lo h) (he : h' = h ++ t) (h2 : NewFrom h.length h') (hl : lo ≤ h.length) :
    NewFrom lo h' := by
  intro a o ha ho
  by_cases hc : a < h.length
  · rw [he, List.getElem?_append_left hc] at ho
    exact h1 a o ha ho
  · obtain ⟨h3, h4⟩ := h2 a o (by omega) ho
    exact ⟨fun b hb => Nat.le_trans hl (h3 b hb), h4⟩

mutual
theorem put_new : ∀ (v : JVal F) (h : Heap F), (∃ t, (put v h).2 = h ++ t) ∧ (∀ b, (put v h).1 = .ptr b → h.length ≤ b ∧ b < (put v h).2.length) ∧
    NewFrom h.length (put v h).2
  | .null, h | .bool _, h | .int _, h | .flt _, h | .str _, h => by
    simp only [put]
    exact ⟨⟨[], by simp⟩, (by intro b hb; cases hb), (fun a o ha ho => by rw [List.getElem?_eq_none ha] at ho; cases ho)⟩
  | .list l, h => by
    obtain ⟨⟨t, h1⟩, h2, h3, h4⟩ := putL_new l h
    simp only [put]
    have hl : h.length ≤ (putL l h).2.length := by rw [h1]; simp
    refine ⟨⟨t ++ [.list (putL l h).1], by rw [h1, List.append_assoc]⟩, ?_, h4.step ⟨fun b hb => (h2 b hb).1, h3⟩⟩
    intro b hb
    cases hb
    exact ⟨hl, by simp⟩
  | .dict d, h => by
    obtain ⟨⟨t, h1⟩, h2, h3, h4⟩ := putD_new d h
    simp only [put]
    have hl : h.length ≤ (putD d h).2.length := by rw [h1]; simp
    refine ⟨⟨t ++ [.dict (putD d h).1], by rw [h1, List.append_assoc]⟩, ?_, h4.step ⟨fun b hb => (h2 b hb).1, h3⟩⟩
    intro b hb
    cases hb
    exact ⟨hl, by simp⟩
theorem putL_new : ∀ (l : List (JVal F)) (h : Heap F), (∃ t, (putL l h).2 = h ++ t) ∧
    (∀ b, .ptr b ∈ (putL l h).1 → h.length ≤ b ∧ b < (putL l h).2.length) ∧ Spread (putL l h).1 ∧ NewFrom h.length (putL l h).2
  | [], h => by
    simp only [putL]
    exact ⟨⟨[], by simp⟩, (by intro b hb; cases hb), .nil, (fun a o ha ho => by rw [List.getElem?_eq_none ha] at ho; cases ho)⟩
  | v :: r, h => by
    obtain ⟨⟨t, h1⟩, h2, h3⟩ := put_new v h
    obtain ⟨⟨u, k1⟩, k2, k3, k4⟩ := putL_new r (put v h).2
    simp only [putL]
    have hl : h.length ≤ (put v h).2.length := by rw [h1]; simp
    have kl : (put v h).2.length ≤ (putL r (put v h).2).2.length := by rw [k1]; simp
    refine ⟨⟨t ++ u, by rw [k1, h1]; simp⟩, ?_, ?_, h3.join k1 k4 hl⟩
    · intro b hb
      rcases List.mem_cons.1 hb with hb | hb
      · have := h2 b hb.symm; omega
      · have := k2 b hb; omega
    · refine List.pairwise_cons.2 ⟨?_, k3⟩
      intro q hq b hb hc
      have := h2 b hb
      have := k2 b (hc ▸ hq)
      omega
theorem putD_new : ∀ (l : List (Str × JVal F)) (h : Heap F), (∃ t, (putD l h).2 = h ++ t) ∧
    (∀ b, .ptr b ∈ (putD l h).1.map (·.2) → h.length ≤ b ∧ b < (putD l h).2.length) ∧ Spread ((putD l h).1.map (·.2)) ∧ NewFrom h.length (putD l h).2
  | [], h => by
    simp only [putD]
    exact ⟨⟨[], by simp⟩, (by intro b hb; cases hb), .nil, (fun a o ha ho => by rw [List.getElem?_eq_none ha] at ho; cases ho)⟩
  | (k, v) :: r, h => by
    obtain ⟨⟨t, h1⟩, h2, h3⟩ := put_new v h
    obtain ⟨⟨u, k1⟩, k2, k3, k4⟩ := putD_new r (put v h).2
    simp only [putD]
    have hl : h.length ≤ (put v h).2.length := by rw [h1]; simp
    have kl : (put v h).2.length ≤ (putD r (put v h).2).2.length := by rw [k1]; simp
    refine ⟨⟨t ++ u, by rw [k1, h1]; simp⟩, ?_, ?_, h3.join k1 k4 hl⟩
    · intro b hb
      rcases List.mem_cons.1 hb with hb | hb
      · have := h2 b hb.symm; omega
      · have := k2 b hb; omega
    · refine List.pairwise_cons.2 ⟨?_, k3⟩
      intro q hq b hb hc
      have := h2 b hb
      have := k2 b (hc ▸ hq)
      omega
end

/-! ### It reads back -/
section read
variable [PyRt F]

theorem readJ_grow {h h' : Heap F} {t : List (Obj F)} (he : h' = h ++ t) {n : Nat} {r : Ref F} {v : JVal F} (hr : readJ h n r = some v) : readJ h' n r = some v := by
  have := read_of_readJ hr
  exact readJ_of_read (read_mono (fun a ha => by rw [he, List.getElem?_append_left ha]) this (Nat.le_refl _))

mutual
theorem put_read : ∀ (v : JVal F) (h : Heap F) (n : Nat), v.depth ≤ n → readJ (put v h).2 n (put v h).1 = some v
  | .null, h, n, _ => by simp only [put]; exact readJ_iff.2 .null
  | .bool b, h, n, _ => by simp only [put]; exact readJ_iff.2 (.bool b)
  | .int b, h, n, _ => by simp only [put]; exact readJ_iff.2 (.int b)
  | .flt b, h, n, _ => by simp only [put]; exact readJ_iff.2 (.flt b)
  | .str b, h, n, _ => by simp only [put]; exact readJ_iff.2 (.str b)
  | .list l, h, n, hd => by
    simp only [put]
    refine readJ_iff.2 (.list _ (putL l h).1 l (by simp) ?_)
    simp only [JVal.depth] at hd
    exact putL_read l h n hd _ rfl
  | .dict d, h, n, hd => by
    simp only [put]
    refine readJ_iff.2 (.dict _ (putD d h).1 d (by simp) ?_)
    simp only [JVal.depth] at hd
    exact putD_read d h n hd _ rfl
theorem putL_read : ∀ (l : List (JVal F)) (h : Heap F) (n : Nat), JVal.depthL l ≤ n → ∀ {t : List (Obj F)} h', h' = (putL l h).2 ++ t →
    All₂ (fun r j => belowJ h' n r = some j) (putL l h).1 l
  | [], h, n, _, _, _, _ => by simp only [putL]; exact .nil
  | v :: r, h, n, hd, t, h', he => by
    simp only [putL] at he ⊢
    simp only [JVal.depthL] at hd
    refine .cons ?_ (putL_read r (put v h).2 n (by omega) h' he)
    cases n with
    | zero => omega
    | succ n =>
      obtain ⟨⟨u, k1⟩, _⟩ := putL_new r (put v h).2
      rw [k1] at he
      exact readJ_grow (t := u ++ t) (by rw [he]; simp) (put_read v h n (by omega))
theorem putD_read : ∀ (l : List (Str × JVal F)) (h : Heap F) (n : Nat), JVal.depthD l ≤ n → ∀ {t : List (Obj F)} h', h' = (putD l h).2 ++ t →
    All₂ (fun p q => p.1 = q.1 ∧ belowJ h' n p.2 = some q.2) (putD l h).1 l
  | [], h, n, _, _, _, _ => by simp only [putD]; exact .nil
  | (k, v) :: r, h, n, hd, t, h', he => by
    simp only [putD] at he ⊢
    simp only [JVal.depthD] at hd
    refine .cons ⟨rfl, ?_⟩ (putD_read r (put v h).2 n (by omega) h' he)
    cases n with
    | zero => omega
    | succ n =>
      obtain ⟨⟨u, k1⟩, _⟩ := putD_new r (put v h).2
      rw [k1] at he
      exact readJ_grow (t := u ++ t) (by rw [he]; simp) (put_read v h n (by omega))
end
end read

/-! ### Nothing is shared -/

theorem dictIn_some {h : Heap F} {r : Ref F} {d : Dict (Ref F)} (hd : dictIn h r = some d) : ∃ a, r = .ptr a ∧ h[a]? = some (.dict d) := by
  unfold dictIn at hd
  split at hd
  · split at hd
    · cases hd; exact ⟨_, rfl, by assumption⟩
    · cases hd
  · cases hd

theorem listIn_some {h : Heap F} {r : Ref F} {d : List (Ref F)} (hd : listIn h r = some d) : ∃ a, r = .ptr a ∧ h[a]? = some (.list d) := by
  unfold listIn at hd
  split at hd
  · split at hd
    · cases hd; exact ⟨_, rfl, by assumption⟩
    · cases hd
  · cases hd

theorem put_apart (v : JVal F) (h : Heap F) : SkinsApart (put v h).2 (put v h).1 := by
  obtain ⟨_, h1, h2⟩ := put_new v h
  intro d l s m w hd hl hs hm hw
  obtain ⟨a, e1, o1⟩ := dictIn_some hd
  have a1 := (h1 a e1).1
  obtain ⟨r1, g1, hl⟩ := Option.bind_eq_some_iff.mp hl
  obtain ⟨b, rfl, o2⟩ := listIn_some hl
  have a2 := (h2 a _ a1 o1).1 b (List.mem_map.2 ⟨_, Dict.mem_of_get? g1, rfl⟩)
  obtain ⟨c, rfl, o3⟩ := dictIn_some hm
  have a3 := (h2 b _ a2 o2).1 c hs
  obtain ⟨r2, g2, hw⟩ := Option.bind_eq_some_iff.mp hw
  obtain ⟨k, rfl, o4⟩ := dictIn_some hw
  have a4 := (h2 c _ a3 o3).1 k (List.mem_map.2 ⟨_, Dict.mem_of_get? g2, rfl⟩)
  have := (h2 k _ a4 o4).2
  unfold Spread at this
  simp only [Obj.refs, List.pairwise_map] at this
  exact this

/-! ### A program may build it -/
section build
variable [PyRt F] {B : Nat}

theorem fixed_build {E : Env F} {w : World F} (hx : w.Fixed B E) (o : Obj F) (r : Ref F) :
    World.Fixed B E { w with heap := w.heap ++ [o], roots := r :: w.roots } := by
  intro v t
  exact ⟨List.mem_cons_of_mem _ (hx v t).1, readJ_grow rfl (hx v t).2⟩

/-- a world in which more has been built -/
structure Built (B : Nat) (E : Env F) (w : World F) (vs : List (Editor F)) (w' : World F) : Prop where
  tied : Tied B E w' vs
  eds : w'.eds = w.eds
  roots : ∀ r ∈ w.roots, r ∈ w'.roots

theorem Built.one {E : Env F} {w w' : World F} {vs : List (Editor F)} (hb : Built B E w vs w') (o : Obj F) (ho : ∀ b, .ptr b ∈ o.refs → .ptr b ∈ w'.roots) :
    Built B E w vs { w' with heap := w'.heap ++ [o], roots := .ptr w'.heap.length :: w'.roots } := by
  refine ⟨tied_own hb.tied (.build w' o ?_) (fixed_build hb.tied.fixed _ _), hb.eds, fun r hr => List.mem_cons_of_mem _ (hb.roots r hr)⟩
  rintro r hr b rfl
  exact ⟨_, ho b hr, .here b⟩

mutual
theorem put_built {E : Env F} {vs : List (Editor F)} : ∀ (v : JVal F) {w : World F}, Tied B E w vs →
    ∃ w', Built B E w vs w' ∧ w'.heap = (put v w.heap).2 ∧ ∀ b, (put v w.heap).1 = .ptr b → .ptr b ∈ w'.roots
  | .null, w, ht | .bool _, w, ht | .int _, w, ht | .flt _, w, ht | .str _, w, ht => by
    simp only [put]
    exact ⟨w, ⟨ht, rfl, fun _ h => h⟩, rfl, by intro b hb; cases hb⟩
  | .list l, w, ht => by
    obtain ⟨w', hb, hh, hr⟩ := putL_built l ht
    simp only [put]
    refine ⟨_, hb.one (.list (putL l w.heap).1) hr, by simp [hh], ?_⟩
    intro b hb
    cases hb
    simp [hh]
  | .dict d, w, ht => by
    obtain ⟨w', hb, hh, hr⟩ := putD_built d ht
    simp only [put]
    refine ⟨_, hb.one (.dict (putD d w.heap).1) hr, by simp [hh], ?_⟩
    intro b hb
    cases hb
    simp [hh]
theorem putL_built {E : Env F} {vs : List (Editor F)} : ∀ (l : List (JVal F)) {w : World F}, Tied B E w vs →
    ∃ w', Built B E w vs w' ∧ w'.heap = (putL l w.heap).2 ∧ ∀ b, .ptr b ∈ (putL l w.heap).1 → .ptr b ∈ w'.roots
  | [], w, ht => by
    simp only [putL]
    exact ⟨w, ⟨ht, rfl, fun _ h => h⟩, rfl, by intro b hb; cases hb⟩
  | v :: r, w, ht => by
    obtain ⟨w1, h1, e1, r1⟩ := put_built v ht
    obtain ⟨w2, h2, e2, r2⟩ := putL_built r h1.tied
    simp only [putL]
    rw [e1] at e2 r2
    refine ⟨w2, ⟨h2.tied, h2.eds.trans h1.eds, fun x hx => h2.roots x (h1.roots x hx)⟩, e2, ?_⟩
    intro b hb
    rcases List.mem_cons.1 hb with hb | hb
    · exact h2.roots _ (r1 b hb.symm)
    · exact r2 b hb
theorem putD_built {E : Env F} {vs : List (Editor F)} : ∀ (l : List (Str × JVal F)) {w : World F}, Tied B E w vs →
    ∃ w', Built B E w vs w' ∧ w'.heap = (putD l w.heap).2 ∧ ∀ b, .ptr b ∈ (putD l w.heap).1.map (·.2) → .ptr b ∈ w'.roots
  | [], w, ht => by
    simp only [putD]
    exact ⟨w, ⟨ht, rfl, fun _ h => h⟩, rfl, by intro b hb; cases hb⟩
  | (k, v) :: r, w, ht => by
    obtain ⟨w1, h1, e1, r1⟩ := put_built v ht
    obtain ⟨w2, h2, e2, r2⟩ := putD_built r h1.tied
    simp only [putD]
    rw [e1] at e2 r2
    refine ⟨w2, ⟨h2.tied, h2.eds.trans h1.eds, fun x hx => h2.roots x (h1.roots x hx)⟩, e2, ?_⟩
    intro b hb
    rcases List.mem_cons.1 hb with hb | hb
    · exact h2.roots _ (r1 b hb.symm)
    · exact r2 b hb
end
end build

end Alias
end Spine
