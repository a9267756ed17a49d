import Verif.Lemmas.KeyOrderEdit
/-
Calls that raise an exception and leave editors that are equal up to the order of keys.
-/
set_option linter.unusedSectionVars false
namespace Spine
open JVal Graph
namespace KeyOrder
variable {F : Type} [PyRt F] {e e' : Editor F}

theorem badDraw_rel {a b : AnimData F} (h : DataR a b) (hd : Editor.BadDraw a) : Editor.BadDraw b := by
  obtain ⟨p, hp, t, ht, k, hk, hs⟩ := hd
  obtain ⟨x, h1, h2⟩ := h.animations.left (k := p.1) (v := p.2) hp
  obtain ⟨u, h3, h4⟩ := h2.drawOrder.left ht
  refine ⟨(p.1, x), h1, u, h3, k, h4.offsets ▸ hk, ?_⟩
  intro s hs'
  obtain ⟨s0, h5, h6⟩ := h.slots.right hs'
  rw [← h6.name]
  exact hs s0 h5

/-- the call raised an exception -/
def Raised {σ α : Type} (x : Res σ α) : Prop := ∃ y, x.1 = .error y

theorem not_raised {σ α : Type} {x : Res σ α} (h : ¬ Raised x) : ∃ r, x = (.ok r, x.2) := by
  obtain ⟨x1, x2⟩ := x
  cases x1 with
  | error y => exact absurd ⟨y, rfl⟩ h
  | ok r => exact ⟨r, rfl⟩

theorem raised_fol {α β σ τ : Type} {R : α → β → Prop} {S : σ → τ → Prop} {x : Res σ α} {y : Res τ β} (h : RFol R S x y) (hy : Raised y) : Raised x := by
  apply Classical.byContradiction
  intro hx
  obtain ⟨r, hx⟩ := not_raised hx
  obtain ⟨b, t, h1, -⟩ := h _ _ hx
  obtain ⟨z, hz⟩ := hy
  rw [h1] at hz
  cases hz

theorem clean_caught (h : ER e e') (hs : Editor.Weak e) (hs' : Editor.Weak e') (hd : ¬ Editor.BadDraw e.data) (hr : Raised (Editor.clean e)) :
    Raised (Editor.clean e') ∧ (Editor.clean e).2 = e ∧ (Editor.clean e').2 = e' := by
  have hr' : Raised (Editor.clean e') := raised_fol (clean_fol h.symm hs' hs) hr
  have key : ∀ {f : Editor F}, Editor.Weak f → ¬ Editor.BadDraw f.data → Raised (Editor.clean f) → (Editor.clean f).2 = f := by
    intro f hf hb hr
    rcases hf.clean_cases hb with ⟨r, f', h'⟩ | ⟨-, h'⟩
    · obtain ⟨y, hy⟩ := hr
      rw [h'] at hy; cases hy
    · exact h'
  exact ⟨hr', key hs hd hr, key hs' (fun hb => hd (badDraw_rel h.data.symm hb)) hr'⟩

theorem cleanUnless_caught (safe : Bool) (h : ER e e') (hs : Editor.Weak e) (hs' : Editor.Weak e') (hd : ¬ Editor.BadDraw e.data)
    (hr : Raised (Editor.cleanUnless safe e)) :
    Raised (Editor.cleanUnless safe e') ∧ (Editor.cleanUnless safe e).2 = e ∧ (Editor.cleanUnless safe e').2 = e' := by
  unfold Editor.cleanUnless at hr ⊢
  cases safe with
  | true => obtain ⟨y, hy⟩ := hr; cases hy
  | false => exact clean_caught h hs hs' hd hr

theorem eraseAnims_caught (arg : Editor.NamesArg) (strict safe : Bool) (h : ER e e') (hs : Editor.Weak e) (hs' : Editor.Weak e')
    (hd : ¬ Editor.BadDraw e.data) (hr : Raised (Editor.eraseAnims arg strict safe e)) :
    Raised (Editor.eraseAnims arg strict safe e') ∧ ER (Editor.eraseAnims arg strict safe e).2 (Editor.eraseAnims arg strict safe e').2 := by
  refine ⟨raised_fol (eraseAnims_fol arg strict safe h.symm hs' hs) hr, ?_⟩
  cases arg with
  | other => exact h
  | list names =>
    unfold Editor.eraseAnims at hr ⊢
    simp only [Editor.eraseRaw_fst] at hr ⊢
    have hk : (Editor.eraseRaw names e.data.animations).2 ≠ [] ↔ (Editor.eraseRaw names e'.data.animations).2 ≠ [] := by
      rw [ne_eq, ne_eq, Editor.eraseRaw_snd_nil, Editor.eraseRaw_snd_nil]
      simp only [h.data.animations.keys]
    have h1 := filterAnims_rel h names
    have w1 := Editor.weak_filterAnims hs (fun p => decide (p.1 ∉ names))
    have w2 := Editor.weak_filterAnims hs' (fun p => decide (p.1 ∉ names))
    split at hr
    · rename_i hc
      rw [if_pos hc, if_pos (by rw [← hk]; exact hc)]
      exact h1
    · rename_i hc
      rw [if_neg hc, if_neg (by rw [← hk]; exact hc)]
      have hb : ¬ Editor.BadDraw (e.withData { e.data with animations := e.data.animations.filter (fun p => p.1 ∉ names) }).data := by
        rintro ⟨p, hp, r⟩
        exact hd ⟨p, (List.mem_filter.1 hp).1, r⟩
      have hc := cleanUnless_caught safe h1 w1 w2 hb
      generalize Editor.cleanUnless safe (e.withData { e.data with animations := e.data.animations.filter (fun p => p.1 ∉ names) }) = q at hr hc
      obtain ⟨q1, q2⟩ := q
      cases q1 with
      | ok r => obtain ⟨y, hy⟩ := hr; cases hy
      | error x =>
        obtain ⟨h3, h4, h5⟩ := hc ⟨x, rfl⟩
        generalize Editor.cleanUnless safe (e'.withData { e'.data with animations := e'.data.animations.filter (fun p => p.1 ∉ names) }) = q' at h3 h5
        obtain ⟨q1', q2'⟩ := q'
        obtain ⟨y, hy⟩ := h3
        simp only at h4 h5 hy
        subst h4 h5 hy
        exact h1

/-- a name that is not the name of a skin when its turn comes -/
def UnknownSkin (names : List Str) (a : AnimData F) : Prop :=
  ∃ pre n post r a1, names = pre ++ n :: post ∧ Editor.removeSkins pre a = (.ok r, a1) ∧ AnimData.getSkin a1 n = none

theorem removeSkins_append (pre post : List Str) : ∀ {a a1 : AnimData F} {r : List (Option Str) × List Str}, Editor.removeSkins pre a = (.ok r, a1) →
    Raised (Editor.removeSkins post a1) → Raised (Editor.removeSkins (pre ++ post) a) ∧
      (Editor.removeSkins (pre ++ post) a).2 = (Editor.removeSkins post a1).2 := by
  induction pre with
  | nil => intro a a1 r h hr; cases h; exact ⟨hr, rfl⟩
  | cons n pre ih =>
    intro a a1 r h hr
    rw [List.cons_append]
    generalize hz : Editor.removeSkins post a1 = z at hr ⊢
    unfold Editor.removeSkins at h ⊢
    generalize AnimData.removeSkin n a = q at h
    obtain ⟨q1, q2⟩ := q
    cases q1 with
    | error x => cases h
    | ok u =>
      simp only at h ⊢
      cases hq : Editor.removeSkins pre q2 with
      | mk p1 p2 =>
        rw [hq] at h
        cases p1 with
        | error x => cases h
        | ok v =>
          simp only [Prod.mk.injEq, Except.ok.injEq] at h
          obtain ⟨-, rfl⟩ := h
          obtain ⟨⟨y, h1⟩, h2⟩ := ih hq (by rw [hz]; exact hr)
          rw [hz] at h2
          generalize Editor.removeSkins (pre ++ post) q2 = w at h1 h2
          obtain ⟨w1, w2⟩ := w
          simp only at h1 h2
          subst h1 h2
          exact ⟨⟨_, rfl⟩, rfl⟩

theorem removeSkins_unknown {pre post : List Str} {n : Str} {a a1 : AnimData F} {r : List (Option Str) × List Str}
    (h : Editor.removeSkins pre a = (.ok r, a1)) (hn : AnimData.getSkin a1 n = none) :
    Raised (Editor.removeSkins (pre ++ n :: post) a) ∧ (Editor.removeSkins (pre ++ n :: post) a).2 = a1 := by
  have hq : Editor.removeSkins (n :: post) a1 = (.error .editor, a1) := by
    unfold Editor.removeSkins AnimData.removeSkin
    rw [hn]
  have := removeSkins_append pre (n :: post) h (by rw [hq]; exact ⟨_, rfl⟩)
  rw [hq] at this
  exact this

theorem unknownSkin_rel {names : List Str} {a b : AnimData F} (h : DataR a b) (hu : UnknownSkin names a) : UnknownSkin names b ∧
    DataR (Editor.removeSkins names a).2 (Editor.removeSkins names b).2 := by
  obtain ⟨pre, n, post, r, a1, rfl, h1, h2⟩ := hu
  obtain ⟨r', b1, h3, -, h4⟩ := removeSkins_fol pre h _ _ h1
  have h5 : AnimData.getSkin b1 n = none := by
    rcases getSkin_rel h4 n with ⟨-, h⟩ | ⟨s, t, h, -⟩
    · exact h
    · rw [h2] at h; cases h
  refine ⟨⟨pre, n, post, r', b1, rfl, h3, h5⟩, ?_⟩
  rw [(removeSkins_unknown h1 h2).2, (removeSkins_unknown h3 h5).2]
  exact h4

theorem eraseSkins_unknown {names : List Str} (safe : Bool) (hu : UnknownSkin names e.data) :
    Raised (Editor.eraseSkins names safe e) ∧ (Editor.eraseSkins names safe e).2 = e.withData (Editor.removeSkins names e.data).2 := by
  obtain ⟨pre, n, post, r, a1, rfl, h1, h2⟩ := hu
  obtain ⟨⟨x, h3⟩, -⟩ := removeSkins_unknown (post := post) h1 h2
  unfold Editor.eraseSkins
  generalize Editor.removeSkins (pre ++ n :: post) e.data = q at h3
  obtain ⟨q1, q2⟩ := q
  simp only at h3
  subst h3
  exact ⟨⟨x, rfl⟩, rfl⟩

theorem eraseSkins_caught (names : List Str) (h : ER e e') (hs : Editor.Weak e) (hs' : Editor.Weak e') (hd : ¬ Editor.BadDraw e.data)
    (hok : ¬ Raised (Editor.eraseSkins names true e)) (hr : Raised (Editor.eraseSkins names false e)) :
    Raised (Editor.eraseSkins names false e') ∧ ER (Editor.eraseSkins names false e).2 (Editor.eraseSkins names false e').2 := by
  refine ⟨raised_fol (eraseSkins_fol names false h.symm hs' hs) hr, ?_⟩
  have h1 := removeSkins_fol names h.data
  have k1 := Editor.removeSkins_any e.doc.version.is38 names e.data
  have k2 := Editor.removeSkins_any e'.doc.version.is38 names e'.data
  have hb := Editor.removeSkins_draw names (a := e.data)
  unfold Editor.eraseSkins at hr hok ⊢
  generalize Editor.removeSkins names e.data = q at hr hok h1 k1 hb
  obtain ⟨q1, a⟩ := q
  cases q1 with
  | error x => exact absurd ⟨x, rfl⟩ hok
  | ok im =>
    obtain ⟨im', b, e2, m1, d1⟩ := h1 _ _ rfl
    rw [e2] at k2 ⊢
    simp only at hr hok k1 k2 hb ⊢
    have h2 := h.withData d1
    have h3 := create_fol (docJson h2.doc)
    cases hg : SpineNodes.create (e.withData a).toJson with
    | error x => rw [hg] at hok; exact absurd ⟨x, rfl⟩ hok
    | ok g =>
      rw [hg] at hr
      obtain ⟨g', hg', hgg⟩ := h3 g hg
      have hg2 : SpineNodes.create (e'.withData b).toJson = .ok g' := hg'
      rw [hg2]
      simp only at hr ⊢
      have h4 := cleanUnless_caught false (h2.withGraph hgg) (Editor.weak_removeSkins hs k1 hg) (Editor.weak_removeSkins hs' k2 hg2)
        (fun x => hd (hb x))
      generalize Editor.cleanUnless false { e.withData a with graph := g } = q at hr h4
      obtain ⟨q1, q2⟩ := q
      cases q1 with
      | ok r => obtain ⟨y, hy⟩ := hr; cases hy
      | error x =>
        obtain ⟨h5, h6, h7⟩ := h4 ⟨x, rfl⟩
        generalize Editor.cleanUnless false { e'.withData b with graph := g' } = q' at h5 h7
        obtain ⟨q1', q2'⟩ := q'
        obtain ⟨y, hy⟩ := h5
        simp only at h6 h7 hy
        subst h6 h7 hy
        exact h2.withGraph hgg

/-! ### scale_animation -/

/-- `scaleX` and `scaleY` of the bone are not lists -/
def NoLists (x : Bone F) : Prop := (∀ l, x.rest.val s!!"scaleX" ≠ .list l) ∧ ∀ l, x.rest.val s!!"scaleY" ≠ .list l

theorem reord_noList {v w : JVal F} (h : Reord v w) (hv : ∀ l, v ≠ .list l) : ∀ l, w ≠ .list l := by
  intro l hl
  subst hl
  cases h with
  | list => exact hv _ rfl

theorem noLists_rel {x y : Bone F} (h : BoneR x y) (hx : NoLists x) : NoLists y :=
  ⟨reord_noList (h.rest.val s!!"scaleX") hx.1, reord_noList (h.rest.val s!!"scaleY") hx.2⟩

theorem scale_eq (sx sy : Num F) {z : Bone F} (h : NoLists z) : z.scale sx sy = match pyMul (z.rest.val s!!"scaleX") sx with
    | .error e => (.error e, z)
    | .ok x' => match pyMul (z.rest.val s!!"scaleY") sy with
      | .error e => (.error e, { z with rest := Dict.set z.rest s!!"scaleX" x' })
      | .ok y' => (.ok (), { z with rest := Dict.set (Dict.set z.rest s!!"scaleX" x') s!!"scaleY" y' }) := by
  unfold Bone.scale
  split
  · exact absurd (by assumption) (h.1 _)
  · exact absurd (by assumption) (h.2 _)
  · rfl

/-- the same calls succeed, and what is left is related -/
def Alike {σ : Type} (S : σ → σ → Prop) (x y : Res σ Unit) : Prop := (Raised x ↔ Raised y) ∧ S x.2 y.2

theorem boneScale_alike (sx sy : Num F) {x y : Bone F} (h : BoneR x y) (hx : NoLists x) : Alike BoneR (x.scale sx sy) (y.scale sx sy) := by
  have hy := noLists_rel h hx
  have hX := h.rest.val s!!"scaleX"
  have hY := h.rest.val s!!"scaleY"
  have hxy : ∀ {u v : JVal F} (n : Num F), Reord u v → (∀ l, u ≠ .list l) → (∃ e, pyMul u n = .error e) → ∃ e, pyMul v n = .error e := by
    intro u v n hr hl ⟨e, he⟩
    cases hv : pyMul v n with
    | error e' => exact ⟨e', rfl⟩
    | ok w =>
      obtain ⟨w', hw, -⟩ := pyMul_fol (reord_symm hr) (reord_noList hr hl) n w hv
      rw [he] at hw; cases hw
  rw [scale_eq sx sy hx, scale_eq sx sy hy]
  cases p1 : pyMul (x.rest.val s!!"scaleX") sx with
  | error e =>
    obtain ⟨e', q1⟩ := hxy sx hX hx.1 ⟨e, p1⟩
    rw [q1]
    exact ⟨⟨fun _ => ⟨e', rfl⟩, fun _ => ⟨e, rfl⟩⟩, h⟩
  | ok a =>
    obtain ⟨a', q1, r1⟩ := pyMul_fol hX hx.1 sx a p1
    rw [q1]
    cases p2 : pyMul (x.rest.val s!!"scaleY") sy with
    | error e =>
      obtain ⟨e', q2⟩ := hxy sy hY hx.2 ⟨e, p2⟩
      simp only [q2]
      exact ⟨⟨fun _ => ⟨e', rfl⟩, fun _ => ⟨e, rfl⟩⟩, h.of_rest rfl rfl rfl rfl (set_keys (mul_key p1)) (h.rest.set _ r1)⟩
    | ok c =>
      obtain ⟨y', h1, h2⟩ := boneScale_fol sx sy h (x' := { x with rest := Dict.set (Dict.set x.rest s!!"scaleX" a) s!!"scaleY" c }) (by
        rw [scale_eq sx sy hx, p1]; simp only [p2])
      rw [scale_eq sx sy hy, q1] at h1
      obtain ⟨c', q2, -⟩ := pyMul_fol hY hx.2 sy c p2
      simp only [q2, Prod.mk.injEq, true_and] at h1 ⊢
      subst h1
      exact ⟨⟨fun ⟨_, h⟩ => by (cases h), fun ⟨_, h⟩ => by (cases h)⟩, h2⟩

theorem mapMut_alike {α : Type} {R : α → α → Prop} {p : α → Prop} {f : α → Res α Unit} (hf : ∀ x y, R x y → p x → Alike R (f x) (f y)) {l m : List α}
    (h : All₂ R l m) (hp : ∀ x ∈ l, p x) : Alike (All₂ R) (mapMut f l) (mapMut f m) := by
  induction h with
  | nil => exact ⟨Iff.rfl, .nil⟩
  | @cons x y l m h1 h2 ih =>
    have ih := ih (fun z hz => hp z (by simp [hz]))
    have hx := hf x y h1 (hp x (by simp))
    unfold mapMut
    generalize f x = u at hx
    generalize f y = v at hx
    obtain ⟨u1, u2⟩ := u
    obtain ⟨v1, v2⟩ := v
    obtain ⟨h3, h4⟩ := hx
    cases u1 with
    | error e =>
      cases v1 with
      | ok _ => obtain ⟨_, h⟩ := h3.1 ⟨e, rfl⟩; cases h
      | error e' => exact ⟨⟨fun _ => ⟨e', rfl⟩, fun _ => ⟨e, rfl⟩⟩, .cons h4 h2⟩
    | ok _ =>
      cases v1 with
      | error e' => obtain ⟨_, h⟩ := h3.2 ⟨e', rfl⟩; cases h
      | ok _ => exact ⟨ih.1, .cons h4 ih.2⟩

theorem onFirst_alike (n : Str) {f : Bone F → Res (Bone F) Unit} (hf : ∀ x y, BoneR x y → NoLists x → Alike BoneR (f x) (f y)) {l m : List (Bone F)}
    (h : All₂ BoneR l m) (hp : ∀ x ∈ l, NoLists x) : Alike (All₂ BoneR) (Editor.onFirst n f l) (Editor.onFirst n f m) := by
  induction h with
  | nil => exact ⟨Iff.rfl, .nil⟩
  | @cons x y l m h1 h2 ih =>
    have ih := ih (fun z hz => hp z (by simp [hz]))
    have hx := hf x y h1 (hp x (by simp))
    unfold Editor.onFirst
    rw [← h1.name]
    split
    · exact ⟨hx.1, .cons hx.2 h2⟩
    · exact ⟨ih.1, .cons h1 ih.2⟩

theorem mul_noList {v r : JVal F} {n : Num F} (hv : ∀ l, v ≠ .list l) (h : pyMul v n = .ok r) : ∀ l, r ≠ .list l := by
  intro l hl
  subst hl
  cases v <;> cases n <;> simp only [pyMul, reduceCtorEq, Except.ok.injEq] at h <;> first | exact hv _ rfl | (split at h <;> cases h)

theorem val_set (d : Attrs F) (k k' : Str) (v : JVal F) : Attrs.val (Dict.set d k v) k' = if k = k' then v else d.val k' := by
  unfold Attrs.val
  rw [Dict.get?_set]
  by_cases h : k' = k
  · subst h; simp
  · rw [if_neg h, if_neg (fun e => h e.symm)]

theorem noLists_scale (sx sy : Num F) {x : Bone F} (hx : NoLists x) : NoLists (x.scale sx sy).2 := by
  rw [scale_eq sx sy hx]
  cases p1 : pyMul (x.rest.val s!!"scaleX") sx with
  | error e => exact hx
  | ok a =>
    have ha := mul_noList hx.1 p1
    cases p2 : pyMul (x.rest.val s!!"scaleY") sy with
    | error e =>
      simp only [NoLists, val_set]
      exact ⟨by rw [if_pos trivial]; exact ha, by rw [if_neg (by decide)]; exact hx.2⟩
    | ok c =>
      simp only [NoLists, val_set]
      exact ⟨by rw [if_neg (by decide), if_pos trivial]; exact ha, by rw [if_pos trivial]; exact mul_noList hx.2 p2⟩

theorem mapMut_all {α : Type} {p : α → Prop} {f : α → Res α Unit} (hf : ∀ x, p x → p (f x).2) {l : List α} (h : ∀ x ∈ l, p x) : ∀ x ∈ (mapMut f l).2, p x := by
  induction l with
  | nil => exact h
  | cons a l ih =>
    have ih := ih (fun x hx => h x (by simp [hx]))
    have ha := hf a (h a (by simp))
    unfold mapMut
    generalize f a = u at ha
    obtain ⟨u1, u2⟩ := u
    cases u1 with
    | error e =>
      intro x hx
      rcases List.mem_cons.1 hx with rfl | hx
      · exact ha
      · exact h x (by simp [hx])
    | ok _ =>
      intro x hx
      rcases List.mem_cons.1 hx with rfl | hx
      · exact ha
      · exact ih x hx

theorem scale_alike (sx sy : Num F) (h : ER e e') (hn : ∀ b ∈ e.data.bones, NoLists b) : Alike ER (Editor.scale sx sy e) (Editor.scale sx sy e') := by
  have step : ∀ x y : Bone F, BoneR x y → NoLists x → Alike BoneR (if Editor.noInherit x then x.scale sx sy else (.ok (), x))
      (if Editor.noInherit y then y.scale sx sy else (.ok (), y)) := by
    intro x y hxy hx
    rw [← noInherit_eq hxy]
    split
    · exact boneScale_alike sx sy hxy hx
    · exact ⟨Iff.rfl, hxy⟩
  have h1 := mapMut_alike step h.data.bones hn
  have h2 := mapMut_all (p := NoLists) (f := fun b : Bone F => if Editor.noInherit b then b.scale sx sy else (.ok (), b)) (l := e.data.bones) (by
    intro x hx
    split
    · exact noLists_scale sx sy hx
    · exact hx) hn
  have wd : ∀ {bs bs' : List (Bone F)}, All₂ BoneR bs bs' → ER (e.withData { e.data with bones := bs }) (e'.withData { e'.data with bones := bs' }) :=
    fun hb => h.withData ⟨hb, h.data.slots, h.data.skins, h.data.events, h.data.ik, h.data.transform, h.data.path, h.data.animations⟩
  unfold Editor.scale
  generalize mapMut (fun b => if Editor.noInherit b then b.scale sx sy else (.ok (), b)) e.data.bones = q at h1 h2
  generalize mapMut (fun b => if Editor.noInherit b then b.scale sx sy else (.ok (), b)) e'.data.bones = q' at h1
  obtain ⟨q1, bs⟩ := q
  obtain ⟨q1', bs'⟩ := q'
  obtain ⟨h3, h4⟩ := h1
  cases q1 with
  | error x =>
    cases q1' with
    | ok _ => obtain ⟨_, h⟩ := h3.1 ⟨x, rfl⟩; cases h
    | error x' => exact ⟨⟨fun _ => ⟨x', rfl⟩, fun _ => ⟨x, rfl⟩⟩, wd h4⟩
  | ok _ =>
    cases q1' with
    | error x' => obtain ⟨_, h⟩ := h3.2 ⟨x', rfl⟩; cases h
    | ok _ =>
      have h5 := onFirst_alike s!!"root" (fun _ _ => boneScale_alike sx sy) h4 h2
      exact ⟨h5.1, wd h5.2⟩

/-- the calls that may raise an exception: erase_animations and clean_animation when no drawOrder offset names an unknown slot, erase_skins when
a name is unknown, or when only the cleaning raises and no drawOrder offset names an unknown slot,
scale_animation when no bone has a list for its scale, which is not modelled -/
def Harmless (e : Editor F) : Editor.Op F → Prop
  | .clean => ¬ Editor.BadDraw e.data
  | .eraseAnims _ _ _ => ¬ Editor.BadDraw e.data
  | .eraseSkins names safe => UnknownSkin names e.data ∨ (safe = false ∧ ¬ Editor.BadDraw e.data ∧ ¬ Raised (Editor.eraseSkins names true e))
  | .scale _ _ => ∀ b ∈ e.data.bones, NoLists b

theorem raised_run {α : Type} {x : Res (Editor F) α} : Raised ((x.1.map (fun _ => ()), x.2) : Res (Editor F) Unit) ↔ Raised x := by
  obtain ⟨x1, x2⟩ := x
  cases x1 with
  | error y => exact ⟨fun _ => ⟨y, rfl⟩, fun _ => ⟨y, rfl⟩⟩
  | ok r => exact ⟨fun ⟨y, hy⟩ => by (cases hy), fun ⟨y, hy⟩ => by (cases hy)⟩

theorem op_caught (o : Editor.Op F) (h : ER e e') (hs : Editor.Called e) (hs' : Editor.Called e') (hh : Harmless e o) (hr : Raised (o.run e)) :
    Raised (o.run e') ∧ Harmless e' o ∧ ER (o.run e).2 (o.run e').2 ∧ Editor.Called (o.run e).2 ∧ Editor.Called (o.run e').2 := by
  have hb : ¬ Editor.BadDraw e.data → ¬ Editor.BadDraw e'.data := fun hd hb => hd (badDraw_rel h.data.symm hb)
  cases o with
  | scale sx sy =>
    have h1 := scale_alike sx sy h hh
    refine ⟨h1.1.1 hr, ?_, h1.2, .run (.scale sx sy) hs (.inr (.inl rfl)), .run (.scale sx sy) hs' (.inr (.inl rfl))⟩
    intro b hb
    obtain ⟨a, h2, h3⟩ := h.data.bones.right hb
    exact noLists_rel h3 (hh a h2)
  | clean =>
    obtain ⟨h1, h2, h3⟩ := clean_caught h hs.weak hs'.weak hh (raised_run.1 hr)
    refine ⟨raised_run.2 h1, hb hh, ?_, .run .clean hs (.inr (.inr hh)), .run .clean hs' (.inr (.inr (hb hh)))⟩
    show ER (Editor.clean e).2 (Editor.clean e').2
    rw [h2, h3]; exact h
  | eraseAnims a t s =>
    obtain ⟨h1, h2⟩ := eraseAnims_caught a t s h hs.weak hs'.weak hh (raised_run.1 hr)
    exact ⟨raised_run.2 h1, hb hh, h2, .run (.eraseAnims a t s) hs (.inr (.inr hh)), .run (.eraseAnims a t s) hs' (.inr (.inr (hb hh)))⟩
  | eraseSkins n s =>
    rcases hh with hu | ⟨rfl, hd, hok⟩
    · obtain ⟨hu', hd⟩ := unknownSkin_rel h.data hu
      have c : ∀ {f : Editor F}, Editor.Called f → UnknownSkin n f.data → Editor.Called ((Editor.Op.eraseSkins n s).run f).2 := by
        intro f hf hu
        have := Editor.Called.run (.eraseSkins n true) hf (.inr (.inl rfl))
        have e1 : ((Editor.Op.eraseSkins n true).run f).2 = ((Editor.Op.eraseSkins n s).run f).2 := by
          show (Editor.eraseSkins n true f).2 = (Editor.eraseSkins n s f).2
          rw [(eraseSkins_unknown true hu).2, (eraseSkins_unknown s hu).2]
        rw [← e1]
        exact this
      refine ⟨raised_run.2 (eraseSkins_unknown s hu').1, .inl hu', ?_, c hs hu, c hs' hu'⟩
      show ER (Editor.eraseSkins n s e).2 (Editor.eraseSkins n s e').2
      rw [(eraseSkins_unknown s hu).2, (eraseSkins_unknown s hu').2]
      exact h.withData hd
    · obtain ⟨h1, h2⟩ := eraseSkins_caught n h hs.weak hs'.weak hd hok (raised_run.1 hr)
      refine ⟨raised_run.2 h1, .inr ⟨rfl, hb hd, fun hr' => hok (raised_fol (eraseSkins_fol n true h hs.weak hs'.weak) hr')⟩, h2,
        .run (.eraseSkins n false) hs (.inr (.inr hd)), .run (.eraseSkins n false) hs' (.inr (.inr (hb hd)))⟩

end KeyOrder
end Spine
