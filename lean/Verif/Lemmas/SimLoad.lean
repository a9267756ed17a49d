import Verif.Lemmas.SimSkin
/-
`SpineAnimationData(data)` on the heap builds the tree of the document.
-/
set_option linter.unusedSectionVars false
namespace Spine
namespace Alias
open M
variable {F : Type} [PyRt F] {B : Nat}

/-! ### What is below a JSON value -/

theorem reach_readJ {h : Heap F} {n : Nat} {r : Ref F} {a : Nat} (hr : Reach h r a) : ∀ {j : JVal F}, readJ h n r = some j →
    ∃ j', readJ h n (.ptr a) = some j' ∧ sizeOf j' ≤ sizeOf j := by
  induction hr with
  | here a => exact fun h1 => ⟨_, h1, Nat.le_refl _⟩
  | there a o r b ho hs _ ih =>
    intro j hj
    cases readJ_iff.mp hj with
    | list a l js ho' h2 =>
      rw [ho] at ho'
      cases ho'
      have : ∃ x ∈ js, readJ h n r = some x := by
        change r ∈ l at hs
        clear ho hj ih
        induction h2 with
        | nil => cases hs
        | cons h1 _ ih2 =>
          rcases List.mem_cons.mp hs with rfl | hs
          · exact ⟨_, by simp, readJ_of_below h1⟩
          · obtain ⟨x, h3, h4⟩ := ih2 hs
            exact ⟨x, by simp [h3], h4⟩
      obtain ⟨x, h3, h4⟩ := this
      obtain ⟨j', h5, h6⟩ := ih h4
      have := List.sizeOf_lt_of_mem h3
      exact ⟨j', h5, by simp; omega⟩
    | dict a d js ho' h2 =>
      rw [ho] at ho'
      cases ho'
      have : ∃ x ∈ js, readJ h n r = some x.2 := by
        change r ∈ d.map (·.2) at hs
        clear ho hj ih
        induction h2 with
        | nil => cases hs
        | cons h1 _ ih2 =>
          rcases List.mem_cons.mp hs with rfl | hs
          · exact ⟨_, by simp, readJ_of_below h1.2⟩
          · obtain ⟨x, h3, h4⟩ := ih2 hs
            exact ⟨x, by simp [h3], h4⟩
      obtain ⟨x, h3, h4⟩ := this
      obtain ⟨j', h5, h6⟩ := ih h4
      have := List.sizeOf_lt_of_mem h3
      obtain ⟨k, x⟩ := x
      simp at this
      exact ⟨j', h5, by simp at h6 ⊢; omega⟩

/-- an object is not below itself -/
theorem not_below {h : Heap F} {n a : Nat} {d : Dict (Ref F)} {dj : Dict (JVal F)} {N : Nat → Prop} (hr : readJ h n (.ptr a) = some (.dict dj))
    (hf : FOk n N h d dj) {p : Str × Ref F} (hp : p ∈ d) : ¬ Reach h p.2 a := by
  intro h1
  obtain ⟨y, hy, y1, y2⟩ := hf.mem_val _ hp
  obtain ⟨j', h5, h6⟩ := reach_readJ h1 y2
  rw [hr] at h5
  cases h5
  have y4 := List.sizeOf_lt_of_mem hy
  obtain ⟨ky, y⟩ := y
  simp at y4 h6
  omega

/-- the references of the copy of an object are copies of its references -/
theorem ObjImg.refs {φ : Nat → Option (Ref F)} {o o' : Obj F} (h : ObjImg φ o o') {s' : Ref F} (hs : s' ∈ o'.refs) :
    ∃ s ∈ o.refs, img φ s = some s' := by
  have hl : ∀ {l l' : List (Ref F)}, All₂ (fun r s => img φ r = some s) l l' → s' ∈ l' → ∃ s ∈ l, img φ s = some s' := by
    intro l l' h
    induction h with
    | nil => exact fun h => nomatch h
    | cons h1 _ ih =>
      intro hm
      rcases List.mem_cons.mp hm with rfl | hm
      · exact ⟨_, by simp, h1⟩
      · obtain ⟨s, h2, h3⟩ := ih hm
        exact ⟨s, by simp [h2], h3⟩
  have hd : ∀ {l l' : Dict (Ref F)}, All₂ (fun p q => p.1 = q.1 ∧ img φ p.2 = some q.2) l l' →
      All₂ (fun r s => img φ r = some s) (l.map (·.2)) (l'.map (·.2)) := by
    intro l l' h
    induction h with
    | nil => exact .nil
    | cons h1 _ ih => exact .cons h1.2 ih
  cases h with
  | list l l' h => exact hl h hs
  | dict l l' h => exact hl (hd h) hs
  | inst t l l' h => exact hl (hd h) hs

/-- the copies of what is below the references `rs`, frozen -/
def frozen (N : Nat → Prop) (h : Heap F) (φ : Nat → Option (Ref F)) (rs : List (Ref F)) : Nat → Prop :=
  fun b => N b ∨ ∃ s ∈ rs, ∃ a, Reach h s a ∧ φ a = some (.ptr b)

theorem frozen_ext {N : Nat → Prop} {h h' : Heap F} {φ : Nat → Option (Ref F)} {rs : List (Ref F)} (hz : Zone N h) (iso : Iso h h' φ) :
    Ext N h Nil (frozen N h φ rs) h' := by
  refine ⟨iso.len, fun _ h => .inl h, ?_, ⟨?_, ?_⟩, fun a ha _ => iso.old a ha⟩
  · rintro a (h1 | ⟨s, _, b, _, h2⟩)
    · exact .inl h1
    · obtain ⟨c, h3, h4, _⟩ := iso.new b _ h2
      cases h3
      exact .inr h4
  · rintro a (h1 | ⟨s, _, b, _, h2⟩)
    · exact Nat.lt_of_lt_of_le (hz.bound a h1) iso.len
    · obtain ⟨c, h3, _, h4⟩ := iso.new b _ h2
      cases h3
      exact h4
  · rintro a o (h1 | ⟨s, h0, b, h1, h2⟩) ho t ht
    · rw [iso.old a (hz.bound a h1)] at ho
      exact (hz.closed a o h1 ho t ht).mono (fun _ h => .inl h)
    · obtain ⟨c, o1, o2, h3, h4, h5, h6⟩ := iso.obj b _ h2
      cases h3
      rw [ho] at h6
      cases h6
      obtain ⟨u, u1, u2⟩ := h5.refs ht
      rintro x rfl
      cases u with
      | ptr y => exact .inr ⟨s, h0, y, reach_trans h1 h4 u1 (.here y), u2⟩
      | _ => simp [img] at u2

theorem frozen_in {N : Nat → Prop} {h : Heap F} {φ : Nat → Option (Ref F)} {rs : List (Ref F)} {r r' : Ref F} (hr : r ∈ rs)
    (hi : img φ r = some r') : In (frozen N h φ rs) r' := by
  rintro a rfl
  cases r with
  | ptr b => exact .inr ⟨_, hr, b, .here b, hi⟩
  | _ => simp [img] at hi

theorem frozen_not {N : Nat → Prop} {h h' : Heap F} {φ : Nat → Option (Ref F)} {rs : List (Ref F)} (hz : Zone N h) (iso : Iso h h' φ) {a b : Nat}
    (hp : φ a = some (.ptr b)) (hn : ∀ s ∈ rs, ¬ Reach h s a) : ¬ frozen N h φ rs b := by
  rintro (h1 | ⟨s, h1, c, h2, h3⟩)
  · obtain ⟨c, h3, h4, _⟩ := iso.new a _ hp
    cases h3
    have := hz.bound b h1
    omega
  · have := iso.inj a c _ hp h3
    subst this
    exact hn s h1 h2

/-! ### No dictionary under two slots of a skin -/

theorem Iso.apart {h h' : Heap F} {φ : Nat → Option (Ref F)} (iso : Iso h h' φ) {d d' : Dict (Ref F)}
    (hl : All₂ (fun p q => p.1 = q.1 ∧ img φ p.2 = some q.2) d d') (ha : Apart d) : Apart d' := by
  unfold Apart at ha ⊢
  induction hl with
  | nil => exact .nil
  | @cons x y l m x1 x2 ih =>
    rw [List.pairwise_cons] at ha ⊢
    refine ⟨fun q hq b hb hb' => ?_, ih ha.2⟩
    clear ih
    have h01 := ha.1
    clear ha
    induction x2 with
    | nil => cases hq
    | @cons u v _ _ u1 _ ih2 =>
      rcases List.mem_cons.mp hq with rfl | hq
      · have g1 := x1.2
        have g2 := u1.2
        rw [hb] at g1
        rw [hb'] at g2
        cases hx : x.2 with
        | ptr c =>
          cases hu : u.2 with
          | ptr c' =>
            rw [hx] at g1
            rw [hu] at g2
            have := iso.inj c c' _ g1 g2
            subst this
            exact h01 u (by simp) c hx hu
          | _ => rw [hu] at g2; simp [img] at g2
        | _ => rw [hx] at g1; simp [img] at g1
      · exact ih2 hq (fun q hq => h01 q (by simp [hq]))

theorem all₂_get {φ : Nat → Option (Ref F)} {d d' : Dict (Ref F)} (hl : All₂ (fun p q => p.1 = q.1 ∧ img φ p.2 = some q.2) d d') {k : Str}
    {w' : Ref F} (hw : Dict.get? d' k = some w') : ∃ w, Dict.get? d k = some w ∧ img φ w = some w' := by
  induction hl with
  | nil => cases hw
  | @cons x y l m x1 x2 ih =>
    obtain ⟨kx, x⟩ := x
    obtain ⟨ky, y⟩ := y
    obtain ⟨e, x1⟩ := x1
    simp only at e x1
    subst e
    unfold Dict.get? at hw ⊢
    by_cases hk : kx = k
    · simp only [hk, if_true, Option.some.injEq] at hw ⊢
      subst hw
      exact ⟨x, rfl, x1⟩
    · simp only [hk, if_false] at hw ⊢
      exact ih hw

/-- the copied dictionary -/
theorem Iso.dict {h h' : Heap F} {φ : Nat → Option (Ref F)} (iso : Iso h h' φ) {r : Ref F} {b : Nat} {d' : Dict (Ref F)}
    (hr : img φ r = some (.ptr b)) (ho : h'[b]? = some (.dict d')) :
    ∃ a d, r = .ptr a ∧ h[a]? = some (.dict d) ∧ All₂ (fun p q => p.1 = q.1 ∧ img φ p.2 = some q.2) d d' := by
  cases r with
  | ptr a =>
    obtain ⟨c, o1, o2, h3, h4, h5, h6⟩ := iso.obj a _ hr
    cases h3
    rw [ho] at h6
    cases h6
    cases h5 with
    | dict d _ hl => exact ⟨a, d, rfl, h4, hl⟩
  | _ => simp [img] at hr

theorem Iso.skinApart {h h' : Heap F} {φ : Nat → Option (Ref F)} (iso : Iso h h' φ) {r r' : Ref F} (hr : img φ r = some r')
    (ha : SkinApart h r) : SkinApart h' r' := by
  rintro b d' w' rfl ho hw
  obtain ⟨a, d, rfl, h1, h2⟩ := iso.dict hr ho
  obtain ⟨w, h3, h4⟩ := all₂_get h2 hw
  rintro c e' rfl ho'
  obtain ⟨a', e, rfl, h5, h6⟩ := iso.dict h4 ho'
  exact iso.apart h6 (ha a d _ rfl h1 h3 a' e rfl h5)

/-- the skins in a list share no dictionary between two slots -/
def ListApart (h : Heap F) (r : Ref F) : Prop := ∀ b l, r = .ptr b → h[b]? = some (.list l) → ∀ s ∈ l, SkinApart h s

/-- the same for the skins of a document -/
def DocApart (h : Heap F) (r : Ref F) : Prop :=
  ∀ a d w, r = .ptr a → h[a]? = some (.dict d) → Dict.get? d s!!"skins" = some w → ListApart h w

theorem Iso.listApart {h h' : Heap F} {φ : Nat → Option (Ref F)} (iso : Iso h h' φ) {r r' : Ref F} (hr : img φ r = some r')
    (ha : ListApart h r) : ListApart h' r' := by
  rintro b l' rfl ho s' hs
  cases r with
  | ptr a =>
    obtain ⟨c, o1, o2, h3, h4, h5, h6⟩ := iso.obj a _ hr
    cases h3
    rw [ho] at h6
    cases h6
    obtain ⟨s, h7, h8⟩ := h5.refs (s' := s') hs
    cases h5 with
    | list l _ hl => exact iso.skinApart h8 (ha a l rfl h4 s h7)
  | _ => simp [img] at hr

theorem SkinApart.ext {N N' : Nat → Prop} {h h' : Heap F} {S : Nat → Prop} {r : Ref F} (hz : Zone N h) (e : Ext N h S N' h') (hr : In N r)
    (ha : SkinApart h r) : SkinApart h' r := by
  intro b d w hr' ho hw
  have hb := hr b hr'
  rw [e.keepN hz b hb] at ho
  exact ApartAt.ext hz e (hz.closed b _ hb ho w (List.mem_map_of_mem (Dict.mem_of_get? hw))) (ha b d w hr' ho hw)

theorem ListApart.ext {N N' : Nat → Prop} {h h' : Heap F} {S : Nat → Prop} {r : Ref F} (hz : Zone N h) (e : Ext N h S N' h') (hr : In N r)
    (ha : ListApart h r) : ListApart h' r := by
  intro b l hr' ho s hs
  have hb := hr b hr'
  rw [e.keepN hz b hb] at ho
  exact SkinApart.ext hz e (hz.closed b _ hb ho s hs) (ha b l hr' ho s hs)

/-- the skins of a document -/
theorem iter_skins {q : F → Prop} {N : Nat → Prop} {h : Heap F} {r : Ref F} {j : JVal F} (hz : Zone N h) (hr : JOk B N h r j) (hf : Fine q j)
    (ha : ListApart h r) : Step N h (iter r) (Spine.iter j) (fun x y N' h' => All₂ (SkinOk q B N' h') y x) := by
  have hr0 := hr
  have hstr : ∀ (s : Str) (h : Heap F), SkinApart h (.str s) := fun s h b d w h1 => nomatch h1
  cases readJ_iff.mp hr.2 with
  | null => exact .error rfl (.refl hz _)
  | bool b => exact .error rfl (.refl hz _)
  | int b => exact .error rfl (.refl hz _)
  | flt b => exact .error rfl (.refl hz _)
  | str s =>
    refine .ok rfl (.refl hz _) ?_
    clear hr hr0 hf ha
    induction s with
    | nil => exact .nil
    | cons c s ih => exact .cons ⟨JOk.str _, fine_str _, hstr _ _⟩ ih
  | list a l js ho h2 =>
    obtain ⟨a', d, e1, h3, h4, h5⟩ := JOk.list hz hr0
    cases e1
    refine .ok (y := d) ?_ (.refl hz _) ?_
    · unfold iter
      simp only [run_bind (run_deref h4)]
      rfl
    · exact h5.imp (fun x y hx hy h6 => ⟨h6, (fine_list.mp hf) y hy, ha a d rfl h4 x hx⟩)
  | dict a l js ho h2 =>
    obtain ⟨a', d, e1, h3, h4, h5⟩ := JOk.dict hz hr0
    cases e1
    refine .ok (y := d.map (fun p => .str p.1)) ?_ (.refl hz _) ?_
    · unfold iter
      simp only [run_bind (run_deref h4)]
      rfl
    · clear hr hr0 h4 h2 hf ha ho
      induction h5 with
      | nil => exact .nil
      | cons h1 _ ih => exact .cons (by simp only [h1.1]; exact ⟨JOk.str _, fine_str _, hstr _ _⟩) ih

/-! ### SpineAnimationData(data) -/

theorem subscript_step {N : Nat → Prop} {h : Heap F} {a : Nat} {d : Dict (Ref F)} {e : Dict (JVal F)} (hz : Zone N h) (ho : h[a]? = some (.dict d))
    (hd : FOk B N h d e) (k : Str) : Step N h (subscript (.ptr a) k) (getItem e k) (fun x y N' h' => N' = N ∧ h' = h ∧ JOk B N h y x ∧
      Dict.get? d k = some y) := by
  unfold getItem
  rcases hd.get k with ⟨h1, h2⟩ | ⟨r, j, h1, h2, h3⟩
  · rw [h2]
    refine .error (h' := h) ?_ (.refl hz _)
    unfold subscript
    simp only [run_bind (run_deref ho), h1]
    rfl
  · rw [h2]
    refine .ok (y := r) (h' := h) ?_ (.refl hz _) ⟨rfl, rfl, h3, h1⟩
    unfold subscript
    simp only [run_bind (run_deref ho), h1]
    rfl

theorem FOk.del {N : Nat → Prop} {h : Heap F} {d : Dict (Ref F)} {e : Dict (JVal F)} (hr : FOk B N h d e) (k : Str) :
    FOk B N h (Dict.del d k) (Dict.del e k) := by
  unfold Dict.del
  induction hr with
  | nil => exact .nil
  | @cons p q _ _ h1 _ ih =>
    obtain ⟨k', r⟩ := p
    obtain ⟨k'', j⟩ := q
    obtain ⟨e1, h2⟩ := h1
    simp only at e1 h2
    subst e1
    by_cases hk : k' = k
    · simpa [hk] using ih
    · simp only [List.filter_cons, hk, ne_eq, not_false_eq_true, decide_true, if_true]
      exact .cons ⟨rfl, h2⟩ ih

theorem run_delItem {h : Heap F} {a : Nat} {d : Dict (Ref F)} {k : Str} (ho : h[a]? = some (.dict d)) (hk : Dict.has d k = true) :
    delItem (.ptr a) k h = (.ok (), h.set a (.dict (Dict.del d k))) := by
  unfold delItem
  simp only [run_bind (run_deref ho), hk, if_true]
  rfl

theorem tl_of {α : Type} {T : α → Tree F → Prop} {N : Nat → Prop} {h h0 : Heap F} (_ : h0.length ≤ h.length) {xs : List α} {ys : List (Ref F)}
    {ts : List (Tree F)} (h1 : All₂ T xs ts) (ha : Acc B h0.length N h (ys.map (fun r => ([], r))) (ts.map (fun t => ([], t)))) :
    Step N h (alloc (.list ys)) (.ok xs) (Made B (TL T) h0) := by
  obtain ⟨k1, k2⟩ := ha.alloc .list
  rw [map_refs] at k1 k2
  exact .ok run_alloc k1 ⟨_, ⟨ts, rfl, h1⟩, k2⟩

theorem listSkins_step {E : Env F} (hE : B ≤ E.lim) {q : F → Prop} {N : Nat → Prop} {h : Heap F} {r : Ref F} {j : JVal F} (hz : Zone N h)
    (hr : JOk B N h r j) (hf : Fine q j) (ha : ListApart h r) :
    Step N h (listOf (newSkin E) r) (do
      let l ← Spine.iter j
      mapE Skin.init l) (Made B (TL (Pre 4 Skin.setDefaults tSkin)) h) := by
  unfold listOf
  refine (iter_skins hz hr hf ha).bind ?_
  rintro x y N1 h1 - e1 g1
  have := mapL_step (B := B) (g := newSkin E) (gv := Skin.init) (ref := fun r => ([], r)) (T := fun x q => q.1 = [] ∧ Pre 4 Skin.setDefaults tSkin x q.2)
    (K := SkinOk q B) (fun N h N' h' a b hz e hk => hk.ext hz e) (fun N h a b hz hk => (newSkin_step hE hz hk).imp (by
      rintro x y N' h' - - ⟨t, t1, t2⟩
      exact ⟨[], t, ⟨rfl, t1⟩, rfl, t2⟩)) g1 (Acc.start e1.zone)
  refine this.last ?_
  rintro xs ys N2 h2 - e2 ⟨kts, k1, k2⟩
  obtain ⟨ts, rfl, k3⟩ := kts_list k1
  refine (tl_of e2.len k3 k2).imp ?_
  rintro _ _ N3 h3 - - ⟨t, t1, t2⟩
  exact ⟨t, t1, t2.since e1.len⟩

theorem newData_step {E : Env F} (hE : B ≤ E.lim) {q : F → Prop} {N : Nat → Prop} {h : Heap F} {r : Ref F} {dj : Dict (JVal F)} (hz : Zone N h)
    (hr : JOk B N h r (.dict dj)) (hf : Fine q (.dict dj)) (ha : DocApart h r) (hs : Dict.has dj s!!"skeleton" = true) :
    Step N h (newData E r) (AnimData.init dj) (Made B (Pre 8 AnimData.setDefaults tData) h) := by
  obtain ⟨a, d, rfl, hNa, hoa, hfd⟩ := JOk.dict hz hr
  obtain ⟨r', h1, φ, run, iso, im⟩ := deepcopy_iso (E := E) ((readJ_depth hr.2).le hE)
  obtain ⟨a', o, o', rfl, i1, i2, i3⟩ := iso.obj a r' im
  rw [hoa] at i1
  cases i1
  cases i2 with
  | dict _ d' hl =>
  obtain ⟨_, n1, n2, n3⟩ := iso.new a _ im
  cases n1
  have e1 : Ext N h Nil (frozen N h φ (d.map (·.2))) h1 := frozen_ext hz iso
  have hna : ¬ frozen N h φ (d.map (·.2)) a' := frozen_not hz iso im (by
    intro s hs
    obtain ⟨p, hp, rfl⟩ := List.mem_map.mp hs
    exact not_below hr.2 hfd hp)
  have hfd1 : FOk B (frozen N h φ (d.map (·.2))) h1 d' dj := by
    have hin : ∀ p ∈ d, p.2 ∈ d.map (·.2) := fun p hp => List.mem_map_of_mem hp
    generalize d.map (·.2) = rs at hin ⊢
    clear i3 ha hoa hr hf hs hna e1
    unfold FOk at hfd ⊢
    induction hl generalizing dj with
    | nil => cases hfd; exact .nil
    | @cons x y l m x1 x2 ih =>
      cases hfd with
      | cons y1 y2 =>
        exact .cons ⟨x1.1.symm.trans y1.1, frozen_in (hin x (by simp)) x1.2, by rw [iso_readJ iso B x1.2]; exact y1.2.2⟩
          (ih y2 (fun p hp => hin p (by simp [hp])))
  have hkeys : d'.map (·.1) = dj.map (·.1) := hfd1.keys
  have hhas : Dict.has d' s!!"skeleton" = true := by
    rw [Dict.has_iff_mem_keys]
    show _ ∈ d'.map (·.1)
    rw [hkeys]
    exact (Dict.has_iff_mem_keys _ _).mp hs
  have hap1 : ∀ w, Dict.get? d' s!!"skins" = some w → ListApart h1 w := by
    intro w hw
    obtain ⟨w0, g1, g2⟩ := all₂_get hl hw
    exact iso.listApart g2 (ha a d w0 rfl hoa g1)
  generalize hN1 : frozen N h φ (d.map (·.2)) = N1 at *
  have e2 : Ext N1 h1 (fun b => b = a') N1 (h1.set a' (.dict (Dict.del d' s!!"skeleton"))) := Ext.set e1.zone _ rfl hna
  have e12 := e1.trans (S := Nil) e2 (by rintro b rfl hb; omega)
  have hf2 := (hfd1.ext e1.zone e2).del s!!"skeleton"
  have hap2 : ∀ w, Dict.get? (Dict.del d' s!!"skeleton") s!!"skins" = some w → ListApart (h1.set a' (.dict (Dict.del d' s!!"skeleton"))) w := by
    intro w hw
    have hw1 : Dict.get? d' s!!"skins" = some w := by
      rw [Dict.get?_del] at hw
      simpa using hw
    exact (hap1 w hw1).ext e1.zone e2 (hfd1.mem_in _ (Dict.mem_of_get? hw1))
  have ho2 : (h1.set a' (.dict (Dict.del d' s!!"skeleton")))[a']? = some (.dict (Dict.del d' s!!"skeleton")) := List.getElem?_set_self n3
  have hl2 : a' < (h1.set a' (.dict (Dict.del d' s!!"skeleton"))).length := by simpa using n3
  have hrun : newData E (.ptr a) h = (do
      let bo ← subscript (.ptr a') s!!"bones"
      let bo ← listOf (newLeaf .bone) bo
      let sl ← subscript (.ptr a') s!!"slots"
      let sl ← listOf (newLeaf .slot) sl
      let sk ← subscript (.ptr a') s!!"skins"
      let sk ← listOf (newSkin E) sk
      let ev ← getDict (Dict.del d' s!!"skeleton") s!!"events" (newLeaf .events)
      let ik ← getList (Dict.del d' s!!"skeleton") s!!"ik" (newLeaf .ik)
      let tr ← getList (Dict.del d' s!!"skeleton") s!!"transform" (newLeaf .transform)
      let pa ← getList (Dict.del d' s!!"skeleton") s!!"path" (newLeaf .path)
      let an ← getDict (Dict.del d' s!!"skeleton") s!!"animations" newAnim
      check AnimData.known [] (Dict.del d' s!!"skeleton")
      alloc (.inst .document [(s!!"bones", bo), (s!!"slots", sl), (s!!"skins", sk), (s!!"events", ev), (s!!"ik", ik),
        (s!!"transform", tr), (s!!"path", pa), (s!!"animations", an)]) : M F (Ref F)) (h1.set a' (.dict (Dict.del d' s!!"skeleton"))) := by
    unfold newData
    rw [run_bind run, run_bind (run_delItem i3 hhas)]
    have el : level (.ptr a') (h1.set a' (.dict (Dict.del d' s!!"skeleton"))) = (.ok (Dict.del d' s!!"skeleton"), h1.set a' (.dict (Dict.del d' s!!"skeleton"))) := by
      unfold level
      simp only [run_bind (run_deref ho2)]
      rfl
    rw [run_bind el]
  have st : Step N1 (h1.set a' (.dict (Dict.del d' s!!"skeleton"))) (do
      let bo ← subscript (.ptr a') s!!"bones"
      let bo ← listOf (newLeaf .bone) bo
      let sl ← subscript (.ptr a') s!!"slots"
      let sl ← listOf (newLeaf .slot) sl
      let sk ← subscript (.ptr a') s!!"skins"
      let sk ← listOf (newSkin E) sk
      let ev ← getDict (Dict.del d' s!!"skeleton") s!!"events" (newLeaf .events)
      let ik ← getList (Dict.del d' s!!"skeleton") s!!"ik" (newLeaf .ik)
      let tr ← getList (Dict.del d' s!!"skeleton") s!!"transform" (newLeaf .transform)
      let pa ← getList (Dict.del d' s!!"skeleton") s!!"path" (newLeaf .path)
      let an ← getDict (Dict.del d' s!!"skeleton") s!!"animations" newAnim
      check AnimData.known [] (Dict.del d' s!!"skeleton")
      alloc (.inst .document [(s!!"bones", bo), (s!!"slots", sl), (s!!"skins", sk), (s!!"events", ev), (s!!"ik", ik),
        (s!!"transform", tr), (s!!"path", pa), (s!!"animations", an)]) : M F (Ref F)) (AnimData.init dj)
      (Made B (Pre 8 AnimData.setDefaults tData) (h1.set a' (.dict (Dict.del d' s!!"skeleton")))) := by
    have hfe : FD (Fine q) (Dict.del dj s!!"skeleton") := by
      have := fine_dict.mp hf
      exact ⟨this.1.sublist (List.Sublist.map _ List.filter_sublist), fun p hp => this.2 p ((List.mem_filter.mp hp).1)⟩
    have z2 := e2.zone
    generalize h1.set a' (.dict (Dict.del d' s!!"skeleton")) = g at hf2 hap2 ho2 hl2 z2 ⊢
    generalize Dict.del d' s!!"skeleton" = dd at hf2 hap2 ho2 ⊢
    unfold AnimData.init
    simp only
    generalize Dict.del dj s!!"skeleton" = de at hf2 hfe ⊢
    clear hna hfd1 hap1 e2 e12 hrun
    have c0 := Acc.start (B := B) z2
    refine (subscript_step z2 ho2 hf2 s!!"bones").bind ?_
    rintro _ bo _ _ - - ⟨rfl, rfl, j1, -⟩
    refine (listOf_makes (newBone_makes.imp (T' := Pre 1 Bone.setDefaults tBone) (by
      rintro _ x t - ⟨rfl, hk⟩; exact pre_boneKeys hk)) _ _ _ _ z2 j1).bind2 ?_
    rintro x1 r1 N2 g2 e3 ⟨t1, u1, p1⟩
    have c1 := c0.snoc e3 s!!"bones" p1
    have f1 := hf2.ext z2 e3
    have o1 : g2[a']? = some (.dict dd) := by rw [e3.keep a' hl2 (.inr id)]; exact ho2
    have l1 := Nat.lt_of_lt_of_le hl2 e3.len
    refine (subscript_step e3.zone o1 f1 s!!"slots").bind ?_
    rintro _ bo _ _ - - ⟨rfl, rfl, j1, -⟩
    refine (listOf_makes (newSlot_makes.imp (T' := Pre 1 (fun _ x => x) tSlot) (by
      rintro _ x t - rfl; exact pre_slot x)) _ _ _ _ e3.zone j1).bind2 ?_
    rintro x2 r2 N3 g3 e4 ⟨t2, u2, p2⟩
    have c2 := c1.snoc e4 s!!"slots" p2
    have f2 := f1.ext e3.zone e4
    have o2 : g3[a']? = some (.dict dd) := by rw [e4.keep a' l1 (.inr id)]; exact o1
    have l2 := Nat.lt_of_lt_of_le l1 e4.len
    refine (subscript_step e4.zone o2 f2 s!!"skins").bind ?_
    rintro skj sk _ _ hsk - ⟨rfl, rfl, j1, hsk'⟩
    have hin := hf2.mem_in _ (Dict.mem_of_get? hsk')
    have hap3 := ((hap2 sk hsk').ext z2 e3 hin).ext e3.zone e4 (hin.mono e3.sub)
    refine (listSkins_step hE e4.zone j1 (fine_getItem hfe hsk) hap3).bind2 ?_
    rintro x3 r3 N4 g4 e5 ⟨t3, u3, p3⟩
    have c3 := c2.snoc e5 s!!"skins" p3
    have f3 := f2.ext e4.zone e5
    refine (getDict_step (newLeaf_pre leaf_events) e5.zone f3 s!!"events").bind ?_
    rintro x4 r4 N5 g5 - e6 ⟨t4, u4, p4⟩
    have c4 := c3.snoc e6 s!!"events" p4
    have f4 := f3.ext e5.zone e6
    refine (getList_step (newLeaf_pre leaf_ik) e6.zone f4 s!!"ik").bind2 ?_
    rintro x5 r5 N6 g6 e7 ⟨t5, u5, p5⟩
    have c5 := c4.snoc e7 s!!"ik" p5
    have f5 := f4.ext e6.zone e7
    refine (getList_step (newLeaf_pre leaf_transform) e7.zone f5 s!!"transform").bind2 ?_
    rintro x6 r6 N7 g7 e8 ⟨t6, u6, p6⟩
    have c6 := c5.snoc e8 s!!"transform" p6
    have f6 := f5.ext e7.zone e8
    refine (getList_step (newLeaf_pre leaf_path) e8.zone f6 s!!"path").bind2 ?_
    rintro x7 r7 N8 g8 e9 ⟨t7, u7, p7⟩
    have c7 := c6.snoc e9 s!!"path" p7
    have f7 := f6.ext e8.zone e9
    refine (getDict_step newAnim_makes e9.zone f7 s!!"animations").bind ?_
    rintro x8 r8 N9 g9 - e10 ⟨t8, u8, p8⟩
    have c8 := c7.snoc e10 s!!"animations" p8
    have f8 := f7.ext e9.zone e10
    refine (check_step _ _ e10.zone f8).bind ?_
    rintro - - N10 g10 - e11 -
    obtain ⟨k1, k2⟩ := (c8.ext e11).alloc (.inst .document)
    exact .ok run_alloc k1 ⟨_, pre_data u1 u2 u3 u4 u5 u6 u7 u8, k2⟩
  generalize hv : AnimData.init dj = v at st ⊢
  cases v with
  | ok x =>
    obtain ⟨y, N2, h2, g1, g2, t, g3, g4⟩ := st
    exact .ok (hrun.trans g1) (e12.trans g2 (fun _ h _ => h)) ⟨t, g3, g4.since e12.len⟩
  | error e =>
    by_cases he : e = .unmodelled
    · subst he; exact .skip
    · obtain ⟨N2, h2, g1, g2⟩ := st.of_error he
      exact .error (hrun.trans g1) (e12.trans g2 (fun _ h _ => h))

end Alias
end Spine
