import Verif.Lemmas.SimErase
/-
What every call keeps of the value model: attachments have the attributes that the methods use, no key twice.
-/
set_option linter.unusedSectionVars false
set_option linter.unusedSimpArgs false
namespace Spine
namespace Alias
open M Editor
variable {F : Type} [PyRt F]

theorem fit_good {x : Att F} (h : Att.Good x) : x.Fit := by
  refine ⟨h.typed, fun hk k hm => ?_⟩
  rw [h.keys, hk]
  simp only [AttKind.cls, linkedMeshCls]
  revert k
  decide

theorem fit_of_text {x : Att F} (ht : ∀ k ∈ [s!!"name", s!!"path"], ∀ v, Dict.get? x.attrs k = some v → v = .null ∨ ∃ t, v = .str t)
    (hl : x.kind = .linked → ∀ k ∈ [s!!"name", s!!"path", s!!"width", s!!"height"], k ∈ Dict.keys x.attrs) : x.Fit := by
  refine ⟨?_, hl⟩
  unfold Att.typed
  rw [List.all_eq_true]
  intro k hk
  cases hv : Dict.get? x.attrs k with
  | none => rfl
  | some v => rcases ht k hk v hv with rfl | ⟨t, rfl⟩ <;> rfl

theorem text_of_fit {x : Att F} (h : x.Fit) : ∀ k ∈ [s!!"name", s!!"path"], ∀ v, Dict.get? x.attrs k = some v → v = .null ∨ ∃ t, v = .str t := by
  intro k hk v hv
  have := h.typed
  unfold Att.typed at this
  rw [List.all_eq_true] at this
  have := this k hk
  rw [hv] at this
  cases v with
  | null => exact .inl rfl
  | str t => exact .inr ⟨t, rfl⟩
  | _ => simp at this

theorem fit_relinked {p x : Att F} (hx : x.Fit) (hp : p.Fit) : (AnimData.relinked p x).Fit := by
  apply fit_of_text
  · intro k hk v hv
    rw [AnimData.relinked_get?, if_pos (by simp only [List.mem_cons, List.not_mem_nil, or_false] at hk ⊢; grind)] at hv
    injection hv with hv
    unfold Attrs.val at hv
    cases hg : Dict.get? x.attrs k with
    | none => rw [hg] at hv; exact .inl hv.symm
    | some w => rw [hg] at hv; simp only [Option.getD_some] at hv; subst hv; exact text_of_fit hx k hk _ hg
  · intro _ k hk
    rw [← Dict.get?_isSome_iff, AnimData.relinked_get?, if_pos hk]
    exact ⟨_, rfl⟩

theorem fit_setDefaultsAtt (b : Bool) {x : Att F} (h : x.Fit) : (x.setDefaults b).Fit := by
  apply fit_of_text
  · intro k hk v hv
    change Dict.get? ((AttKind.cls x.kind).setDefaults b x.attrs) k = some v at hv
    rw [Cls.get?_setDefaults] at hv
    cases hg : Dict.get? x.attrs k with
    | none => rw [hg] at hv; cases hv
    | some w =>
      rw [hg] at hv
      rcases text_of_fit h k hk w hg with rfl | ⟨t, rfl⟩
      · have := AnimData.cls_noDefault (F := F) x.kind b (k := k) (by simp only [List.mem_cons, List.not_mem_nil, or_false] at hk ⊢; grind)
        simp only [Option.map_some, Option.some.injEq] at hv
        simp [this] at hv
        exact .inl hv.symm
      · simp only [Option.map_some, Option.some.injEq] at hv
        exact .inr ⟨t, hv.symm⟩
  · intro hl k hk
    show k ∈ Dict.keys ((AttKind.cls x.kind).setDefaults b x.attrs)
    rw [Cls.keys_setDefaults]
    exact h.link hl k hk

theorem fit_setDefaults (b : Bool) {s : Skin F} (h : s.Fit) : (s.setDefaults b).Fit := by
  intro p hp q hq
  obtain ⟨p0, hp0, rfl⟩ := List.mem_map.1 hp
  obtain ⟨q0, hq0, rfl⟩ := List.mem_map.1 hq
  exact fit_setDefaultsAtt b (h p0 hp0 q0 hq0)

theorem fit_get {s : Skin F} (h : s.Fit) {slot key : Str} {e : Dict (Att F)} {x : Att F} (h1 : Dict.get? s.attachments slot = some e)
    (h2 : Dict.get? e key = some x) : x.Fit := h _ (Dict.mem_of_get? h1) _ (Dict.mem_of_get? h2)

theorem fit_relinkSkin {gone s : Skin F} (n : Str) (hg : gone.Fit) (hs : s.Fit) : (AnimData.relinkSkin gone n s).2.Fit := by
  unfold AnimData.relinkSkin
  split
  · exact hs
  · refine mapMut_good (G := fun p : Str × Dict (Att F) => ∀ q ∈ p.2, q.2.Fit) _ (fun p hp => ?_) s.attachments hs
    refine mapMut_good (G := fun q : Str × Att F => q.2.Fit) _ (fun q hq => ?_) p.2 hp
    show (AnimData.relinkAtt gone n p.1 q.1 q.2).2.Fit
    unfold AnimData.relinkAtt
    split
    · split
      · exact hq
      · split
        · exact hq
        · exact fit_relinked hq (fit_get hg ‹_› ‹_›)
    · exact hq

/-- all attachments of the document -/
def SkinsFit (a : AnimData F) : Prop := ∀ s ∈ a.skins, s.Fit

theorem fit_removeSkin (n : Str) {a : AnimData F} (h : SkinsFit a) : SkinsFit (AnimData.removeSkin n a).2 := by
  unfold AnimData.removeSkin
  split
  · exact h
  · rename_i gone hg
    have hs := mapMut_good (G := Skin.Fit) (AnimData.relinkSkin gone n) (fun s hs => fit_relinkSkin n (h _ (List.mem_of_find?_eq_some hg)) hs) a.skins h
    simp only
    split
    · exact hs
    · split
      · exact hs
      · exact fun s hm => hs s (List.mem_filter.1 hm).1

theorem uniq_ok {q : F → Prop} {s : Skin F} (h : s.Ok q) : Skin.Uniq s := by
  have h : FD (FD (Att.Ok q)) s.attachments := h
  exact ⟨h.1, fun p hp => (h.2 p hp).1⟩

theorem fit_removeSkins (l : List Str) {a : AnimData F} (h : SkinsFit a) : SkinsFit (Editor.removeSkins l a).2 := by
  induction l generalizing a with
  | nil => exact h
  | cons n l ih =>
    unfold Editor.removeSkins
    have h1 := fit_removeSkin n h
    split
    · rename_i hx; rw [hx] at h1; exact h1
    · rename_i i r a' hx
      rw [hx] at h1
      have h' := ih h1
      split
      · rename_i hy; rw [hy] at h'; exact h'
      · rename_i hy; rw [hy] at h'; exact h'

theorem fit_slots (ids : List Str) (orig : List (Slot F)) {a : AnimData F} (h : SkinsFit a) : SkinsFit (Editor.removeSlots ids orig a).2 := by
  intro s hs
  obtain ⟨s0, h0, rfl⟩ := List.mem_map.1 hs
  exact fun p hp => h s0 h0 p (List.mem_filter.1 hp).1

theorem fit_atts (ids : List Str) {a : AnimData F} (h : SkinsFit a) : SkinsFit (Editor.removeAttachments ids a) := by
  intro s hs
  obtain ⟨s0, h0, rfl⟩ := List.mem_map.1 hs
  intro p hp q hq
  obtain ⟨p0, hp0, rfl⟩ := List.mem_map.1 hp
  exact h s0 h0 p0 hp0 q (List.mem_filter.1 hq).1

theorem fit_data (b : Bool) {a : AnimData F} (h : SkinsFit a) : SkinsFit (a.setDefaults b) := by
  intro s hs
  obtain ⟨s0, h0, rfl⟩ := List.mem_map.1 hs
  exact fit_setDefaults b (h s0 h0)

theorem fit_readBack {e : Editor F} (h : SkinsFit e.data) : SkinsFit (Editor.readBack e).2.data := by
  unfold Editor.readBack
  split
  · exact h
  · split
    · exact h
    · simp only
      split
      · exact h
      · split
        · exact h
        · exact fit_data _ h

theorem fit_clean {e : Editor F} (h : SkinsFit e.data) : SkinsFit (Editor.clean e).2.data := by
  unfold Editor.clean
  simp only
  split
  · exact h
  · split
    · exact h
    · rename_i ids g hg
      have hrb := fit_readBack (e := { e with graph := g }) h
      split
      · rename_i hx; rw [hx] at hrb; exact hrb
      · rename_i hx; rw [hx] at hrb
        rename_i e1
        have hrs := fit_slots ids e.data.slots hrb
        split
        · rename_i hy; rw [hy] at hrs; exact hrs
        · rename_i hy; rw [hy] at hrs
          split
          · exact fit_atts _ hrs
          · exact fit_atts _ hrs

theorem fit_cleanUnless (safe : Bool) {e : Editor F} (h : SkinsFit e.data) : SkinsFit (Editor.cleanUnless safe e).2.data := by
  unfold Editor.cleanUnless
  split
  · exact h
  · exact fit_clean h

theorem fit_run (o : Op F) {e : Editor F} (h : SkinsFit e.data) : SkinsFit (o.run e).2.data := by
  cases o with
  | eraseSkins n s =>
    show SkinsFit (Editor.eraseSkins n s e).2.data
    unfold Editor.eraseSkins
    have hs := fit_removeSkins n h
    split
    · rename_i hx; rw [hx] at hs; exact hs
    · rename_i imgs regions a hx
      rw [hx] at hs
      simp only
      split
      · exact hs
      · rename_i g _
        have h2 := fit_cleanUnless s (e := { e.withData a with graph := g }) hs
        split
        · rename_i hy; rw [hy] at h2; exact h2
        · rename_i hy; rw [hy] at h2; exact h2
  | eraseAnims a t s =>
    show SkinsFit (Editor.eraseAnims a t s e).2.data
    unfold Editor.eraseAnims
    split
    · exact h
    · rename_i names
      simp only
      split
      · exact h
      · have h2 := fit_cleanUnless s (e := e.withData { e.data with animations := (Editor.eraseRaw names e.data.animations).1 }) h
        split
        · rename_i hy; rw [hy] at h2; exact h2
        · rename_i hy; rw [hy] at h2; exact h2
  | clean => exact fit_clean h
  | scale x y =>
    show SkinsFit (Editor.scale x y e).2.data
    unfold Editor.scale
    split <;> exact h

/-- what is known of the state of the value model between calls -/
structure Inv (e : Editor F) : Prop where
  fine : EFine (fun _ => True) e
  skins : SkinsFit e.data
  images : (Dict.keys e.images).Nodup

theorem Inv.fit {e : Editor F} (h : Inv e) : e.data.Fit := ⟨h.fine.core.bones, h.skins⟩

theorem inv_load {doc : JVal F} {e : Editor F} (hd : doc.Proper) (h : load doc = .ok e) : Inv e :=
  ⟨efine_load trivial ⟨hd, floatsAre_true _⟩ h, fun s hs p hp q hq => fit_good ((load_data h).2.1 s hs p hp q hq), nodup_images (load_ok h).2.1⟩

theorem inv_run (o : Op F) {e : Editor F} (h : Inv e) : Inv (o.run e).2 :=
  ⟨run_fine trivial o (.inr fun _ => trivial) h.fine, fit_run o h.skins, h.images.sublist ((run_images o e).map _)⟩

/-- `remove_skin` for every name of the list -/
theorem removeSkins_does {B : Nat} {E : Env F} {q : F → Prop} (hm : 8 + B ≤ E.lim) (ns : List Str) (x : AnimData F) (hx : SkinsFit x) (ho : x.Ok q) :
    DoesR B tData (fun r => removeSkins E r ns) (Editor.removeSkins ns) x := by
  induction ns generalizing x with
  | nil => exact fun N h r S hz hr => ⟨N, h, rfl, .refl hz _, hr.mono (fun a ha => .inl ha)⟩
  | cons n ns ih =>
    intro N h r S hz hr
    show ∃ N' h', removeSkins E r (n :: ns) h = _ ∧ _
    unfold removeSkins Editor.removeSkins
    have h1 := fit_removeSkin n hx
    have h2 := AnimData.ok_removeSkin n ho
    obtain ⟨N1, g1, e1, x1, r1⟩ := removeSkin_does hm n x (fun s hs => ⟨hx s hs, uniq_ok (ho.skins s hs)⟩) N h r S hz hr
    generalize AnimData.removeSkin n x = qq at *
    obtain ⟨o, y⟩ := qq
    cases o with
    | error e => exact ⟨N1, g1, by rw [run_fail e1], x1, r1⟩
    | ok v =>
      obtain ⟨i, rr⟩ := v
      obtain ⟨N2, g2, e2, x2, r2⟩ := ih y h1 h2 N1 g1 r _ x1.zone r1
      simp only
      refine ⟨N2, g2, ?_, ?_, ?_⟩
      · rw [run_bind e1]
        generalize Editor.removeSkins ns y = qq at *
        obtain ⟨o, z⟩ := qq
        cases o with
        | error e => simp only; rw [run_fail e2]
        | ok v => simp only; rw [run_bind e2]; rfl
      · exact x1.grown x2
      · have hg : ∀ a, Grown (Grown S h) g1 a → Grown S h a := fun a ha => ha.elim id (fun hl => .inr (Nat.le_trans x1.len hl))
        generalize Editor.removeSkins ns y = qq at *
        obtain ⟨o, z⟩ := qq
        cases o with
        | error e => exact r2.mono hg
        | ok v => exact r2.mono hg

end Alias
end Spine
