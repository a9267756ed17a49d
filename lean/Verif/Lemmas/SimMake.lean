import Verif.Lemmas.SimStep
/-
Lists, dictionaries and objects of plain attributes are built on the heap as on values.
-/
set_option linter.unusedSectionVars false
namespace Spine
namespace Alias
open M
variable {F : Type} [PyRt F] {B : Nat}

/-- the constructor builds, from a JSON value in the zone (with `A` levels), a tree related to the value built by the value model -/
def MakesA (A B : Nat) {α : Type} (f : Ref F → M F (Ref F)) (init : JVal F → Except Err α) (T : α → Tree F → Prop) : Prop :=
  ∀ N h r j, Zone N h → JOk A N h r j →
    Step N h (f r) (init j) (fun x y N' h' => ∃ t, T x t ∧ Rep B N' h' y t (Btw h.length h'.length))

/-- the constructor builds, from a JSON value in the zone, a tree related to the value built by the value model -/
def Makes (B : Nat) {α : Type} (f : Ref F → M F (Ref F)) (init : JVal F → Except Err α) (T : α → Tree F → Prop) : Prop :=
  ∀ N h r j, Zone N h → JOk B N h r j →
    Step N h (f r) (init j) (fun x y N' h' => ∃ t, T x t ∧ Rep B N' h' y t (Btw h.length h'.length))

theorem Makes.imp {α : Type} {f : Ref F → M F (Ref F)} {init : JVal F → Except Err α} {T T' : α → Tree F → Prop} (hm : Makes B f init T)
    (hi : ∀ j x t, init j = .ok x → T x t → T' x t) : Makes B f init T' := by
  intro N h r j hz hr
  refine (hm N h r j hz hr).imp ?_
  rintro x y N' h' hx _ ⟨t, h1, h2⟩
  exact ⟨t, hi j x t hx h1, h2⟩

/-- the outcome seen through a function that may give up on what is not modelled -/
theorem MakesA.narrow {A : Nat} {α β : Type} {f : Ref F → M F (Ref F)} {init : JVal F → Except Err α} {init' : JVal F → Except Err β}
    {T : α → Tree F → Prop} {T' : β → Tree F → Prop} (hm : MakesA A B f init T)
    (hi : ∀ j, init' j = .error .unmodelled ∨ (∃ e, init j = .error e ∧ init' j = .error e) ∨
      ∃ x y, init j = .ok x ∧ init' j = .ok y ∧ ∀ t, T x t → T' y t) : MakesA A B f init' T' := by
  intro N h r j hz hr
  have := hm N h r j hz hr
  rcases hi j with e | ⟨e, h1, h2⟩ | ⟨x, y, h1, h2, h3⟩
  · rw [e]; exact .skip
  · rw [h1] at this
    rw [h2]
    by_cases he : e = .unmodelled
    · subst he; exact .skip
    · obtain ⟨N', h', g1, g2⟩ := this.of_error he
      exact .error g1 g2
  · rw [h1] at this
    rw [h2]
    obtain ⟨r', N', h', g1, g2, t, g3, g4⟩ := this.of_ok
    exact .ok g1 g2 ⟨t, h3 t g3, g4⟩

theorem Makes.narrow {α β : Type} {f : Ref F → M F (Ref F)} {init : JVal F → Except Err α} {init' : JVal F → Except Err β}
    {T : α → Tree F → Prop} {T' : β → Tree F → Prop} (hm : Makes B f init T)
    (hi : ∀ j, init' j = .error .unmodelled ∨ (∃ e, init j = .error e ∧ init' j = .error e) ∨
      ∃ x y, init j = .ok x ∧ init' j = .ok y ∧ ∀ t, T x t → T' y t) : Makes B f init' T' :=
  MakesA.narrow (A := B) hm hi

/-! ### Consecutive places -/

theorem RepK.snoc {N : Nat → Prop} {h : Heap F} {rs : Dict (Ref F)} {ts : List (Str × Tree F)} {S T : Nat → Prop} {k : Str} {r : Ref F}
    {t : Tree F} (hr : RepK B N h rs ts S) (ht : Rep B N h r t T) (hd : ∀ a, S a → T a → False) :
    RepK B N h (rs ++ [(k, r)]) (ts ++ [(k, t)]) (fun a => S a ∨ T a) := by
  induction ts generalizing rs S with
  | nil =>
    cases hr
    exact .cons _ _ _ _ _ T Nil _ ht (.nil _) (fun a _ h => h) (fun a ha => .inr ha) (fun a ha => ha.elim)
  | cons p ts ih =>
    cases hr with
    | cons k' r0 t0 rs _ S1 S2 _ h1 h2 h3 h4 h5 =>
      refine .cons _ _ _ _ _ S1 _ _ h1 (ih h2 (fun a ha hb => hd a (h5 a ha) hb)) ?_ (fun a ha => .inl (h4 a ha)) ?_
      · intro a ha hb
        rcases hb with hb | hb
        · exact h3 a ha hb
        · exact hd a (h4 a ha) hb
      · intro a ha; exact ha.imp (h5 a) id

/-- trees built one after the other since the heap had the given length -/
structure Acc (B : Nat) (n : Nat) (N : Nat → Prop) (h : Heap F) (rs : Dict (Ref F)) (ts : List (Str × Tree F)) : Prop where
  le : n ≤ h.length
  zone : Zone N h
  rep : RepK B N h rs ts (Btw n h.length)

theorem Acc.start {N : Nat → Prop} {h : Heap F} (hz : Zone N h) : Acc B h.length N h [] [] := ⟨Nat.le_refl _, hz, .nil _⟩

theorem Acc.ext {n : Nat} {N N' : Nat → Prop} {h h' : Heap F} {rs : Dict (Ref F)} {ts : List (Str × Tree F)} (ha : Acc B n N h rs ts)
    (e : Ext N h Nil N' h') : Acc B n N' h' rs ts :=
  ⟨Nat.le_trans ha.le e.len, e.zone, (ha.rep.frame ha.zone e (fun _ h _ _ => h)).mono (fun _ hb => ⟨hb.1, Nat.lt_of_lt_of_le hb.2 e.len⟩)⟩

theorem Acc.snoc {n : Nat} {N N' : Nat → Prop} {h h' : Heap F} {rs : Dict (Ref F)} {ts : List (Str × Tree F)} (ha : Acc B n N h rs ts)
    (e : Ext N h Nil N' h') (k : Str) {r : Ref F} {t : Tree F} (hr : Rep B N' h' r t (Btw h.length h'.length)) :
    Acc B n N' h' (rs ++ [(k, r)]) (ts ++ [(k, t)]) := by
  refine ⟨Nat.le_trans ha.le e.len, e.zone, ?_⟩
  have h1 := ha.rep.frame ha.zone e (fun _ h _ _ => h)
  refine (h1.snoc (k := k) hr (fun a h2 h3 => ?_)).mono (fun a h2 => ?_)
  · have := h2.2; have := h3.1; omega
  · rcases h2 with h2 | h2
    · exact ⟨h2.1, Nat.lt_of_lt_of_le h2.2 e.len⟩
    · exact ⟨Nat.le_trans ha.le h2.1, h2.2⟩

theorem Acc.leaf {n : Nat} {N : Nat → Prop} {h : Heap F} {rs : Dict (Ref F)} {ts : List (Str × Tree F)} (ha : Acc B n N h rs ts)
    (k : Str) {r : Ref F} {j : JVal F} (hr : JOk B N h r j) : Acc B n N h (rs ++ [(k, r)]) (ts ++ [(k, .leaf j)]) :=
  ha.snoc (.refl ha.zone _) k (.leaf _ _ _ hr.1 hr.2)

/-- the object that owns them -/
theorem Acc.alloc {n : Nat} {N : Nat → Prop} {h : Heap F} {rs : Dict (Ref F)} {ts : List (Str × Tree F)} (ha : Acc B n N h rs ts) (k : Kind) :
    Ext N h Nil N (h ++ [k.obj rs]) ∧ Rep B N (h ++ [k.obj rs]) (.ptr h.length) (.node k ts) (Btw n (h ++ [k.obj rs]).length) := by
  have e : Ext N h Nil N (h ++ [k.obj rs]) := Ext.alloc ha.zone _ _
  refine ⟨e, .node _ _ rs _ _ (Btw n h.length) (by simp) ⟨ha.le, by simp⟩ ?_ (ha.rep.frame ha.zone e (fun _ h _ _ => h)) ?_⟩
  · intro hn; exact Nat.lt_irrefl _ (ha.zone.bound _ hn)
  · intro b hb
    refine ⟨⟨hb.1, ?_⟩, ?_⟩
    · have := hb.2; simp; omega
    · have := hb.2; omega

/-! ### Loops -/

theorem mapL_cons {α β : Type} {f : α → M F β} {x : α} {l : List α} : mapL f (x :: l) = (do
    let y ← f x
    let s ← mapL f l
    return y :: s) := rfl

theorem mapE_cons {α β : Type} {f : α → Except Err β} {x : α} {l : List α} : mapE f (x :: l) = (do
    let y ← f x
    let s ← mapE f l
    return y :: s) := by
  show (match f x with
    | .error e => .error e
    | .ok b => match mapE f l with
      | .error e => .error e
      | .ok bs => .ok (b :: bs)) = (f x >>= fun y => mapE f l >>= fun s => pure (y :: s))
  cases f x with
  | error e => rfl
  | ok y =>
    show (match mapE f l with
      | .error e => .error e
      | .ok bs => .ok (y :: bs)) = (mapE f l >>= fun s => pure (y :: s))
    cases mapE f l <;> rfl

/-- `[g(x) for x in l]`: elements related to the values give trees in consecutive places -/
theorem mapL_step {α β γ δ : Type} {g : α → M F γ} {gv : β → Except Err δ} {ref : γ → Str × Ref F} {T : δ → Str × Tree F → Prop}
    {K : (Nat → Prop) → Heap F → α → β → Prop}
    (hK : ∀ N h N' h' a b, Zone N h → Ext N h Nil N' h' → K N h a b → K N' h' a b)
    (hg : ∀ N h a b, Zone N h → K N h a b → Step N h (g a) (gv b) (fun x y N' h' => ∃ k t, T x (k, t) ∧ (ref y).1 = k ∧
      Rep B N' h' (ref y).2 t (Btw h.length h'.length))) :
    ∀ {l : List α} {m : List β} {n : Nat} {N : Nat → Prop} {h : Heap F} {rs : Dict (Ref F)} {ts : List (Str × Tree F)}, All₂ (K N h) l m →
      Acc B n N h rs ts →
      Step N h (mapL g l) (mapE gv m) (fun xs ys N' h' => ∃ kts, All₂ T xs kts ∧ Acc B n N' h' (rs ++ ys.map ref) (ts ++ kts))
  | [], _, n, N, h, rs, ts, .nil, ha => .ok (y := []) rfl (.refl ha.zone _) ⟨[], .nil, by simpa using ha⟩
  | a :: l, b :: m, n, N, h, rs, ts, .cons h1 h2, ha => by
    rw [mapL_cons, mapE_cons]
    refine (hg N h a b ha.zone h1).bind ?_
    rintro x y N1 h1' _ e1 ⟨k, t, g1, g2, g3⟩
    have hl : All₂ (K N1 h1') l m := h2.imp (fun _ _ _ _ hk => hK _ _ _ _ _ _ ha.zone e1 hk)
    refine (mapL_step hK hg hl (ha.snoc e1 k g3)).bind ?_
    rintro xs ys N2 h2' _ e2 ⟨kts, g4, g5⟩
    refine .ok (y := y :: ys) rfl (.refl e2.zone _) ⟨(k, t) :: kts, .cons g1 g4, ?_⟩
    have e3 : rs ++ [(k, (ref y).2)] ++ ys.map ref = rs ++ (y :: ys).map ref := by simp [← g2]
    rw [e3] at g5
    simpa using g5

/-- lists of built values -/
def TL {α : Type} (T : α → Tree F → Prop) (l : List α) (t : Tree F) : Prop := ∃ ts, t = .node .list (ts.map (fun t => ([], t))) ∧ All₂ T l ts

/-- dictionaries of built values -/
def TD {α : Type} (T : α → Tree F → Prop) (d : Dict α) (t : Tree F) : Prop :=
  ∃ ts, t = .node .dict ts ∧ All₂ (fun p q => p.1 = q.1 ∧ T p.2 q.2) d ts

theorem kts_list {α : Type} {T : α → Tree F → Prop} {l : List α} {kts : List (Str × Tree F)}
    (h : All₂ (fun (x : α) (q : Str × Tree F) => q.1 = [] ∧ T x q.2) l kts) : ∃ ts : List (Tree F), kts = ts.map (fun t => (([] : Str), t)) ∧ All₂ T l ts := by
  induction h with
  | nil => exact ⟨[], rfl, .nil⟩
  | @cons x q _ _ h1 _ ih =>
    obtain ⟨ts, rfl, h2⟩ := ih
    obtain ⟨k, t⟩ := q
    simp only at h1
    exact ⟨t :: ts, by simp [h1.1], .cons h1.2 h2⟩

theorem mapL_makesA {A : Nat} {α : Type} {f : Ref F → M F (Ref F)} {init : JVal F → Except Err α} {T : α → Tree F → Prop} (hf : MakesA A B f init T)
    {N : Nat → Prop} {h : Heap F} {l : List (Ref F)} {m : List (JVal F)} (hz : Zone N h) (hl : All₂ (JOk A N h) l m) :
    Step N h (mapL f l) (mapE init m) (fun xs ys N' h' => ∃ ts, All₂ T xs ts ∧
      Acc B h.length N' h' (ys.map (fun r => ([], r))) (ts.map (fun t => ([], t)))) := by
  refine (mapL_step (B := B) (K := fun N h r j => JOk A N h r j) (ref := fun r => ([], r)) (T := fun x q => q.1 = [] ∧ T x q.2)
    (fun N h N' h' a b hz e hk => hk.ext hz e) ?_ hl (Acc.start hz)).imp ?_
  · intro N h a b hz hk
    refine (hf N h a b hz hk).imp ?_
    rintro x y N' h' _ _ ⟨t, h1, h2⟩
    exact ⟨[], t, ⟨rfl, h1⟩, rfl, h2⟩
  · rintro xs ys N' h' _ _ ⟨kts, h1, h2⟩
    obtain ⟨ts, rfl, h3⟩ := kts_list h1
    exact ⟨ts, h3, by simpa using h2⟩

theorem mapL_makes {α : Type} {f : Ref F → M F (Ref F)} {init : JVal F → Except Err α} {T : α → Tree F → Prop} (hf : Makes B f init T)
    {N : Nat → Prop} {h : Heap F} {l : List (Ref F)} {m : List (JVal F)} (hz : Zone N h) (hl : All₂ (JOk B N h) l m) :
    Step N h (mapL f l) (mapE init m) (fun xs ys N' h' => ∃ ts, All₂ T xs ts ∧
      Acc B h.length N' h' (ys.map (fun r => ([], r))) (ts.map (fun t => ([], t)))) :=
  mapL_makesA (A := B) hf hz hl

theorem map_refs (l : List (Ref F)) : (Kind.list).obj (l.map (fun r => (([] : Str), r))) = Obj.list l := by
  simp [Kind.obj, Function.comp_def]

theorem listOf_makes {α : Type} {f : Ref F → M F (Ref F)} {init : JVal F → Except Err α} {T : α → Tree F → Prop} (hf : Makes B f init T) :
    Makes B (listOf f) (fun v => do
      let l ← Spine.iter v
      mapE init l) (TL T) := by
  intro N h r j hz hr
  unfold listOf
  refine (iter_step hz hr).bind ?_
  rintro js rs N1 h1 - e1 g1
  refine (mapL_makes hf e1.zone g1).last ?_
  rintro xs ys N2 h2 - e2 ⟨ts, g2, g3⟩
  obtain ⟨g4, g5⟩ := g3.alloc .list
  rw [map_refs] at g4 g5
  refine .ok run_alloc g4 ⟨_, ⟨ts, rfl, g2⟩, ?_⟩
  exact g5.mono (fun a ha => ⟨Nat.le_trans e1.len ha.1, ha.2⟩)

theorem mapD_eq {α β : Type} (f : α → Except Err β) (d : Dict α) : mapD f d = mapE (fun p => do
    let y ← f p.2
    return (p.1, y)) d := by
  unfold mapD
  congr 1
  funext p
  cases f p.2 <;> rfl

theorem mapV_makes {α : Type} {f : Ref F → M F (Ref F)} {init : JVal F → Except Err α} {T : α → Tree F → Prop} (hf : Makes B f init T)
    {N : Nat → Prop} {h : Heap F} {l : Dict (Ref F)} {m : Dict (JVal F)} (hz : Zone N h) (hl : FOk B N h l m) :
    Step N h (mapV f l) (mapD init m) (fun xs ys N' h' => ∃ ts, All₂ (fun p q => p.1 = q.1 ∧ T p.2 q.2) xs ts ∧ Acc B h.length N' h' ys ts) := by
  rw [mapD_eq]
  unfold mapV
  refine (mapL_step (B := B) (K := fun N h (p : Str × Ref F) (q : Str × JVal F) => p.1 = q.1 ∧ JOk B N h p.2 q.2) (ref := fun r => r)
    (T := fun (x : Str × α) q => x.1 = q.1 ∧ T x.2 q.2)
    (fun N h N' h' a b hz e hk => ⟨hk.1, hk.2.ext hz e⟩) ?_ hl (Acc.start hz)).imp ?_
  · intro N h a b hz hk
    refine (hf N h a.2 b.2 hz hk.2).bind ?_
    rintro x y N' h' _ e ⟨t, h1, h2⟩
    exact .ok (y := (a.1, y)) rfl (.refl e.zone _) ⟨b.1, t, ⟨rfl, h1⟩, hk.1, h2⟩
  · rintro xs ys N' h' _ _ ⟨kts, h1, h2⟩
    exact ⟨kts, h1, by simpa using h2⟩

theorem dictOf_makes {α : Type} {f : Ref F → M F (Ref F)} {init : JVal F → Except Err α} {T : α → Tree F → Prop} (hf : Makes B f init T) :
    Makes B (dictOf f) (fun v => do
      let l ← Spine.itemsOf v
      mapD init l) (TD T) := by
  intro N h r j hz hr
  unfold dictOf
  refine (itemsOf_step hz hr).bind ?_
  rintro js rs N1 h1 - e1 g1
  refine (mapV_makes hf e1.zone g1).last ?_
  rintro xs ys N2 h2 - e2 ⟨ts, g2, g3⟩
  obtain ⟨g4, g5⟩ := g3.alloc .dict
  refine .ok run_alloc g4 ⟨_, ⟨ts, rfl, g2⟩, ?_⟩
  exact g5.mono (fun a ha => ⟨Nat.le_trans e1.len ha.1, ha.2⟩)

/-- the result of one step of a constructor -/
def Made (B : Nat) {α : Type} (T : α → Tree F → Prop) (h : Heap F) : α → Ref F → (Nat → Prop) → Heap F → Prop :=
  fun x y N' h' => ∃ t, T x t ∧ Rep B N' h' y t (Btw h.length h'.length)

theorem getList_step {α : Type} {f : Ref F → M F (Ref F)} {init : JVal F → Except Err α} {T : α → Tree F → Prop} (hf : Makes B f init T)
    {N : Nat → Prop} {h : Heap F} {d : Dict (Ref F)} {e : Dict (JVal F)} (hz : Zone N h) (hd : FOk B N h d e) (k : Str) :
    Step N h (getList d k f) (do
      let l ← getIter e k
      mapE init l) (Made B (TL T) h) := by
  unfold getList getIter
  rcases hd.get k with ⟨h1, h2⟩ | ⟨r, j, h1, h2, h3⟩
  · rw [h1, h2]
    obtain ⟨g4, g5⟩ := (Acc.start (B := B) hz).alloc .list
    exact .ok (x := []) run_alloc g4 ⟨_, ⟨[], rfl, .nil⟩, g5⟩
  · rw [h1, h2]
    exact listOf_makes hf N h r j hz h3

theorem getDict_step {α : Type} {f : Ref F → M F (Ref F)} {init : JVal F → Except Err α} {T : α → Tree F → Prop} (hf : Makes B f init T)
    {N : Nat → Prop} {h : Heap F} {d : Dict (Ref F)} {e : Dict (JVal F)} (hz : Zone N h) (hd : FOk B N h d e) (k : Str) :
    Step N h (getDict d k f) (Anim.getDict e k init) (Made B (TD T) h) := by
  unfold getDict Anim.getDict
  rcases hd.get k with ⟨h1, h2⟩ | ⟨r, j, h1, h2, h3⟩
  · rw [h1, h2]
    obtain ⟨g4, g5⟩ := (Acc.start (B := B) hz).alloc .dict
    exact .ok (x := []) run_alloc g4 ⟨_, ⟨[], rfl, .nil⟩, g5⟩
  · rw [h1, h2]
    refine (dictItems_step hz h3).bind ?_
    rintro js rs N1 h1 - e1 g1
    refine (mapV_makes hf e1.zone g1).last ?_
    rintro xs ys N2 h2 - e2 ⟨ts, g2, g3⟩
    obtain ⟨g4, g5⟩ := g3.alloc .dict
    refine .ok run_alloc g4 ⟨_, ⟨ts, rfl, g2⟩, ?_⟩
    exact g5.mono (fun a ha => ⟨Nat.le_trans e1.len ha.1, ha.2⟩)

/-- `values.get(k, {})` followed by a constructor -/
theorem getOrNew_step {α : Type} {f : Ref F → M F (Ref F)} {init : JVal F → Except Err α} {T : α → Tree F → Prop} (hf : Makes B f init T)
    {N : Nat → Prop} {h : Heap F} {d : Dict (Ref F)} {e : Dict (JVal F)} (hz : Zone N h) (hd : FOk B N h d e) (k : Str) :
    Step N h (getOrNew d k >>= f) (init ((Dict.get? e k).getD (.dict []))) (Made B T h) := by
  unfold getOrNew
  rcases hd.get k with ⟨h1, h2⟩ | ⟨r, j, h1, h2, h3⟩
  · rw [h1, h2]
    have hE : Ext N h Nil (fun a => N a ∨ a = h.length) (h ++ [.dict []]) := by
      have e0 := Ext.alloc hz (.dict []) Nil
      refine ⟨e0.len, fun a ha => .inl ha, fun a ha => ha.imp id (fun h => by omega), ?_, fun a ha _ => List.getElem?_append_left ha⟩
      constructor
      · rintro a (ha | rfl)
        · have := hz.bound a ha; simp; omega
        · simp
      · rintro a o (ha | rfl) ho s hs
        · exact (e0.zone.closed a o ha ho s hs).mono (fun _ => .inl)
        · simp at ho
          subst ho
          simp [Obj.refs] at hs
    have hj : JOk B (fun a => N a ∨ a = h.length) (h ++ [.dict []]) (.ptr h.length) (.dict []) :=
      ⟨in_ptr.mpr (.inr rfl), readJ_iff.mpr (.dict _ [] [] (by simp) .nil)⟩
    have e0 : init ((none : Option (JVal F)).getD (.dict [])) = ((.ok () : Except Err Unit) >>= fun _ => init (.dict [])) := rfl
    rw [e0]
    refine Step.bind (P := fun _ y N' h' => y = .ptr h.length ∧ N' = (fun a => N a ∨ a = h.length) ∧ h' = h ++ [.dict []])
      (.ok run_alloc hE ⟨rfl, rfl, rfl⟩) ?_
    rintro _ y N' h' _ _ ⟨rfl, rfl, rfl⟩
    refine (hf _ _ _ _ hE.zone hj).imp ?_
    rintro x y N2 h2 _ _ ⟨t, g1, g2⟩
    exact ⟨t, g1, g2.mono (fun a ha => ⟨Nat.le_trans hE.len ha.1, ha.2⟩)⟩
  · rw [h1, h2]
    exact hf N h r j hz h3

/-! ### Objects of plain attributes -/

/-- the tree of an object of plain attributes -/
def tAttrs (t : Tag) (a : Attrs F) : Tree F := .node (.inst t) (dmap .leaf a)

theorem newLeaf_makesA {A : Nat} (hA : A ≤ B + 1) (t : Tag) : MakesA A B (newLeaf (F := F) t) (t.cls.init) (fun a tr => tr = tAttrs t a) := by
  intro N h r j hz hr
  unfold newLeaf Cls.init
  refine (values_stepA t.cls hA hz hr).bind ?_
  intro e d N1 h1 _ e1 g1
  refine (check_step t.cls.attrs t.cls.required e1.zone g1).bind ?_
  intro _ _ N2 h2 _ e2 _
  have g2 := g1.ext e1.zone e2
  have ha : ∀ (ks : List Str) rs ts, Acc B h2.length N2 h2 rs ts →
      Acc B h2.length N2 h2 (rs ++ ks.map (fun k => (k, (Dict.get? d k).getD .null)))
        (ts ++ ks.map (fun k => (k, .leaf ((Dict.get? e k).getD .null)))) := by
    intro ks
    induction ks with
    | nil => intro rs ts h; simpa using h
    | cons k ks ih =>
      intro rs ts h
      simpa using ih _ _ (h.leaf k (g2.getD k JOk.null))
  obtain ⟨g4, g5⟩ := (ha (t.cls (F := F)).attrs [] [] (Acc.start e2.zone)).alloc (.inst t)
  refine .ok run_alloc g4 ⟨_, rfl, ?_⟩
  have := g5.mono (S' := Btw h.length _) (fun a ha => ⟨Nat.le_trans (Nat.le_trans e1.len e2.len) ha.1, ha.2⟩)
  simpa [tAttrs, dmap, Function.comp_def, Kind.obj] using this

theorem newLeaf_makes (t : Tag) : Makes B (newLeaf (F := F) t) (t.cls.init) (fun a tr => tr = tAttrs t a) :=
  newLeaf_makesA (A := B) (Nat.le_succ _) t

end Alias
end Spine
