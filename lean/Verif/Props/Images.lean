import Verif.Lemmas.Images
import Verif.Props.Scale
import Verif.Spec.Sample
/-
C56, and C47/C48 for a freshly loaded editor: `images_references` after loading.
-/
set_option linter.unusedSectionVars false
namespace Spine
open JVal
variable {F : Type} [PyRt F]

/-! ## Specification -/

/-- the first slot of a name -/
def IsSlot (slots : List (Slot F)) (n : Str) (s : Slot F) : Prop :=
  ∃ l r, slots = l ++ s :: r ∧ s.name = n ∧ ∀ x ∈ l, x.name ≠ n

/-- the custom scale of a slot: the product of the scales in the slot's name and in the names of the bones below `root` -/
def SlotScale (a : AnimData F) (slot : Str) (y : F) : Prop :=
  ∃ s x xs, IsSlot a.slots slot s ∧ NameScale F s.name x ∧ Reaches a.bones s.bone xs ∧
    y = PyRt.fmul x (xs.foldl PyRt.fmul PyRt.fone)

/-- the images folder of the document -/
def ImagesFolder (skeleton : Dict (JVal F)) (f : Str) : Prop :=
  Dict.get? skeleton s!!"images" = some (.str f) ∨ (Dict.get? skeleton s!!"images" = none ∧ f = s!!"./images/")

/-- the file `rel` in the folder: an absolute path stays as it is, and there is one slash after a folder that is not empty -/
inductive InFolder : Str → Str → Str → Prop
  | absolute (folder r : Str) : InFolder folder ('/' :: r) ('/' :: r)
  | here (rel : Str) : rel.head? ≠ some '/' → InFolder [] rel rel
  | slash (folder rel : Str) : rel.head? ≠ some '/' → InFolder (folder ++ ['/']) rel (folder ++ '/' :: rel)
  | folder (folder : Str) (c : Char) (rel : Str) : rel.head? ≠ some '/' → c ≠ '/' → InFolder (folder ++ [c]) rel (folder ++ c :: '/' :: rel)

/-! ## Proofs -/

theorem inFolder_iff (folder rel p : Str) : InFolder folder rel p ↔ p = pathJoin folder rel := by
  constructor
  · intro h
    cases h with
    | absolute r => rfl
    | here _ h =>
      unfold pathJoin
      split
      · exact absurd rfl h
      · simp
    | slash f _ h =>
      unfold pathJoin
      split
      · exact absurd rfl h
      · simp
    | folder f c _ h hc =>
      unfold pathJoin
      split
      · exact absurd rfl h
      · simp [hc]
  · rintro rfl
    unfold pathJoin
    split
    · exact .absolute _ _
    · rename_i hb
      have hr : rel.head? ≠ some '/' := by
        cases rel with
        | nil => simp
        | cons c r => intro h; injection h with h; exact hb r (by rw [h])
      rcases List.eq_nil_or_concat folder with rfl | ⟨f, c, rfl⟩
      · simpa using InFolder.here rel hr
      · rw [List.concat_eq_append]
        by_cases hc : c = '/'
        · subst hc; simpa using InFolder.slash f rel hr
        · simpa [hc] using InFolder.folder f c rel hr hc

theorem getSlot_some (a : AnimData F) (n : Str) (s : Slot F) : AnimData.getSlot a n = some s ↔ IsSlot a.slots n s := by
  simp only [AnimData.getSlot, List.find?_eq_some_iff_append, IsSlot, beq_iff_eq, Bool.not_eq_true', beq_eq_false_iff_ne]
  constructor
  · rintro ⟨h, l, r, e, hl⟩; exact ⟨l, r, e, h, hl⟩
  · rintro ⟨l, r, e, h, hl⟩; exact ⟨h, l, r, e, hl⟩

theorem slotScale_spec {a : AnimData F} {n : Str} {y : F} (h : AnimData.slotScale a (AnimData.getSlot a n) = .ok y) :
    SlotScale a n y := by
  cases hs : AnimData.getSlot a n with
  | none => rw [hs] at h; cases h
  | some s =>
    rw [hs] at h
    obtain ⟨x, xs, h1, h2, h3⟩ := (AnimData.c33_otherwise a s).2.2.2 y h
    exact ⟨s, x, xs, (getSlot_some a n s).1 hs, h1, h2, h3⟩

namespace Editor

/-- an entry of `images_references` is what the property says -/
def EntryOk (s : SpineDoc F) (i : Str) (r : ImageRef F) : Prop :=
  ∃ folder slot y, ImagesFolder s.skeleton folder ∧ InFolder folder i r.path ∧ s.data.SlotShows slot i ∧
    SlotScale s.data slot y ∧ r.scale = if PyRt.feq y PyRt.fone then none else some y

theorem refStep_ok {folder : JVal F} {scale : F} {acc acc' : Dict (ImageRef F)} {p : Str × Att F}
    (h : refStep folder scale acc p = .ok acc') :
    (p.2.kind = .path ∧ acc' = acc) ∨ (p.2.kind ≠ .path ∧ ∃ i f, ImageName p.1 p.2 i ∧ folder = .str f ∧
      acc' = Dict.set acc i ⟨pathJoin f i, if PyRt.feq scale PyRt.fone then none else some scale⟩) := by
  unfold refStep at h
  split at h
  · rename_i hk; injection h with h; exact .inl ⟨hk, h.symm⟩
  · rename_i hk
    obtain ⟨i, h1, h⟩ := bindOk h
    obtain ⟨f, h2, h⟩ := bindOk h
    injection h with h'
    refine .inr ⟨hk, i, ?_⟩
    unfold joinFolder at h2
    cases folder with
    | str g =>
      simp only [Except.ok.injEq] at h2
      exact ⟨g, imageOf_ok h1, rfl, by rw [← h', ← h2]⟩
    | _ => cases h2

/-- the collected entries are correct, cover every image in use, and every slot of a skin is known -/
theorem imagesReferences_spec {s : SpineDoc F} {im : Dict (ImageRef F)} (h : imagesReferences s = .ok im) :
    (∀ i r, Dict.get? im i = some r → EntryOk s i r) ∧
    (∀ i, s.data.UsesImage i → i ∈ Dict.keys im) ∧ (Dict.keys im).Nodup ∧
    (∀ k ∈ s.data.skins, ∀ p ∈ k.attachments, ∃ y, SlotScale s.data p.1 y) ∧
    (s.data.skins ≠ [] → s.version.is38 = true) := by
  unfold imagesReferences at h
  simp only at h
  obtain ⟨fo, hfo⟩ : ∃ fo, fo = (Dict.get? s.skeleton s!!"images").getD (.str s!!"./images/") := ⟨_, rfl⟩
  rw [← hfo] at h
  have hfold : ∀ f, fo = .str f → ImagesFolder s.skeleton f := by
    intro f e
    rw [hfo] at e
    cases hg : Dict.get? s.skeleton s!!"images" with
    | none =>
      rw [hg] at e
      refine .inr ⟨hg, ?_⟩
      simp only [Option.getD_none, JVal.str.injEq] at e
      exact e.symm
    | some v => rw [hg] at e; simp at e; subst e; exact .inl hg
  have keysmono : ∀ {sc acc p acc' i}, refStep fo sc acc p = .ok acc' → i ∈ Dict.keys acc → i ∈ Dict.keys acc' := by
    intro sc acc p acc' i h hi
    rcases refStep_ok h with ⟨_, rfl⟩ | ⟨_, j, f, _, _, rfl⟩
    · exact hi
    · rw [← Dict.has_iff_mem_keys, Dict.has, Dict.get?_set]
      rw [← Dict.has_iff_mem_keys, Dict.has] at hi
      split <;> simp_all
  have keysmono2 : ∀ {acc p acc' i}, refSlot s.data fo acc p = .ok acc' → i ∈ Dict.keys acc → i ∈ Dict.keys acc' := by
    intro acc p acc' i h hi
    unfold refSlot at h
    split at h
    · cases h
    · exact Graph.foldE_inv (fun acc => i ∈ Dict.keys acc) _ (fun _ _ _ _ hi h => keysmono h hi) _ _ hi h
  have keysmono3 : ∀ {acc p acc' i}, refSkin s.version.is38 s.data fo acc p = .ok acc' → i ∈ Dict.keys acc → i ∈ Dict.keys acc' := by
    intro acc p acc' i h hi
    unfold refSkin at h
    split at h
    · exact Graph.foldE_inv (fun acc => i ∈ Dict.keys acc) _ (fun _ _ _ _ hi h => keysmono2 h hi) _ _ hi h
    · cases h
  refine ⟨?_, ?_, ?_, ?_, ?_⟩
  · refine Graph.foldE_inv (fun acc => ∀ i r, Dict.get? acc i = some r → EntryOk s i r) s.data.skins ?_ [] im
      (by intro i r h; simp [Dict.get?] at h) h
    intro k hk acc acc' hacc hstep
    unfold refSkin at hstep
    split at hstep
    rotate_left
    · cases hstep
    refine Graph.foldE_inv (fun acc => ∀ i r, Dict.get? acc i = some r → EntryOk s i r) k.attachments ?_ acc acc' hacc hstep
    intro p hp acc acc' hacc hstep
    unfold refSlot at hstep
    split at hstep
    · cases hstep
    · rename_i y hy
      refine Graph.foldE_inv (fun acc => ∀ i r, Dict.get? acc i = some r → EntryOk s i r) p.2 ?_ acc acc' hacc hstep
      intro q hq acc acc' hacc hstep
      rcases refStep_ok hstep with ⟨_, rfl⟩ | ⟨hkind, j, f, hj, hf, rfl⟩
      · exact hacc
      · intro i r hr
        rw [Dict.get?_set] at hr
        split at hr
        · rename_i e
          subst e
          injection hr with hr
          subst hr
          exact ⟨f, p.1, y, hfold f hf, (inFolder_iff _ _ _).2 rfl, ⟨q.1, q.2, ⟨k, hk, p.2, hp, hq⟩, hkind, hj⟩, slotScale_spec hy, rfl⟩
        · exact hacc i r hr
  · rintro i ⟨slot, key, x, ⟨k, hk, e, he, hx⟩, hkind, hi⟩
    refine foldE_cover (fun (k : Skin F) acc => ∀ slot e key x, (slot, e) ∈ k.attachments → (key, x) ∈ e → x.kind ≠ .path →
      ImageName key x i → i ∈ Dict.keys acc) s.data.skins ?_ ?_ [] im h k hk slot e key x he hx hkind hi
    · intro acc k acc' k' h hc slot e key x he hx hkind hi
      exact keysmono3 h (hc slot e key x he hx hkind hi)
    · intro k _ acc acc' h slot e key x he hx hkind hi
      unfold refSkin at h
      split at h
      rotate_left
      · cases h
      refine foldE_cover (fun (p : Str × Dict (Att F)) acc => ∀ key x, (key, x) ∈ p.2 → x.kind ≠ .path →
        ImageName key x i → i ∈ Dict.keys acc) k.attachments ?_ ?_ acc acc' h (slot, e) he key x hx hkind hi
      · intro acc p acc' p' h hc key x hx hkind hi
        exact keysmono2 h (hc key x hx hkind hi)
      · intro p _ acc acc' h key x hx hkind hi
        unfold refSlot at h
        split at h
        · cases h
        · refine foldE_cover (fun (p : Str × Att F) acc => p.2.kind ≠ .path → ImageName p.1 p.2 i → i ∈ Dict.keys acc) p.2 ?_ ?_
            acc acc' h (key, x) hx hkind hi
          · intro acc p acc' p' h hc hkind hi
            exact keysmono h (hc hkind hi)
          · intro q _ acc acc' h hkind hi
            rcases refStep_ok h with ⟨hk, _⟩ | ⟨_, j, f, hj, _, rfl⟩
            · exact absurd hk hkind
            · rw [hi.unique hj, ← Dict.has_iff_mem_keys, Dict.has, Dict.get?_set]
              simp
  · refine Graph.foldE_inv (fun acc => (Dict.keys acc).Nodup) s.data.skins ?_ [] im (by simp [Dict.keys]) h
    intro k hk acc acc' hacc hstep
    unfold refSkin at hstep
    split at hstep
    rotate_left
    · cases hstep
    refine Graph.foldE_inv (fun acc => (Dict.keys acc).Nodup) k.attachments ?_ acc acc' hacc hstep
    intro p hp acc acc' hacc hstep
    unfold refSlot at hstep
    split at hstep
    · cases hstep
    · refine Graph.foldE_inv (fun acc => (Dict.keys acc).Nodup) p.2 ?_ acc acc' hacc hstep
      intro q hq acc acc' hacc hstep
      rcases refStep_ok hstep with ⟨_, rfl⟩ | ⟨hkind, j, f, hj, hf, rfl⟩
      · exact hacc
      · exact Dict.nodup_keys_set hacc _ _
  · intro k hk
    refine foldE_cover (fun (k : Skin F) _ => ∀ p ∈ k.attachments, ∃ y, SlotScale s.data p.1 y) s.data.skins
      (fun _ _ _ _ _ h => h) ?_ [] im h k hk
    intro k _ acc acc' h
    unfold refSkin at h
    split at h
    rotate_left
    · cases h
    refine foldE_cover (fun (p : Str × Dict (Att F)) _ => ∃ y, SlotScale s.data p.1 y) k.attachments
      (fun _ _ _ _ _ h => h) ?_ acc acc' h
    intro p _ acc acc' h
    unfold refSlot at h
    split at h
    · cases h
    · rename_i y hy; exact ⟨y, slotScale_spec hy⟩
  · intro hne
    cases hs : s.data.skins with
    | nil => exact absurd hs hne
    | cons k r =>
      have := foldE_cover (fun (_ : Skin F) _ => s.version.is38 = true) s.data.skins (fun _ _ _ _ _ h => h) ?_ [] im h k (by simp [hs])
      · exact this
      · intro k _ acc acc' h
        unfold refSkin at h
        split at h
        · assumption
        · cases h

theorem load_ok {doc : JVal F} {e : Editor F} (h : load doc = .ok e) :
    SpineDoc.load doc = .ok e.doc ∧ imagesReferences e.doc = .ok e.images ∧ SpineNodes.create e.doc.toJson = .ok e.graph := by
  unfold load at h
  split at h
  · cases h
  · rename_i s hs
    split at h
    · cases h
    · rename_i im him
      split at h
      · cases h
      · rename_i g hg
        injection h with h; subst h
        exact ⟨hs, him, hg⟩

/-! ## Theorems -/

/-- C56: after loading, every entry of `images_references` maps an image in use to the images folder joined with the image,
and carries the product scale of a slot that uses the image exactly when this scale differs from 1. -/
theorem c56_entries {doc : JVal F} {e : Editor F} (h : load doc = .ok e) {i : Str} {r : ImageRef F}
    (hr : Dict.get? e.images i = some r) :
    ∃ folder slot y, ImagesFolder e.doc.skeleton folder ∧ InFolder folder i r.path ∧ e.data.SlotShows slot i ∧
      SlotScale e.data slot y ∧ r.scale = if PyRt.feq y PyRt.fone then none else some y :=
  (imagesReferences_spec (load_ok h).2.1).1 i r hr

/-- C56: when all slots that show the image have the same scale, the entry is determined. -/
theorem c56_scale {doc : JVal F} {e : Editor F} (h : load doc = .ok e) {i : Str} {r : ImageRef F} {y : F}
    (hr : Dict.get? e.images i = some r) (hy : ∀ slot z, e.data.SlotShows slot i → SlotScale e.data slot z → z = y) :
    r.scale = if PyRt.feq y PyRt.fone then none else some y := by
  obtain ⟨_, slot, z, _, _, h1, h2, h3⟩ := c56_entries h hr
  rw [← hy slot z h1 h2]; exact h3

/-- C47 for a freshly loaded editor: every image in use is listed. -/
theorem c47_load {doc : JVal F} {e : Editor F} (h : load doc = .ok e) {i : Str} (hi : e.data.UsesImage i) :
    i ∈ Dict.keys e.images := (imagesReferences_spec (load_ok h).2.1).2.1 i hi

/-- C48 for a freshly loaded editor: every listed image is in use, and is listed once. -/
theorem c48_load {doc : JVal F} {e : Editor F} (h : load doc = .ok e) :
    (∀ i ∈ Dict.keys e.images, e.data.UsesImage i) ∧ (Dict.keys e.images).Nodup := by
  refine ⟨fun i hi => ?_, (imagesReferences_spec (load_ok h).2.1).2.2.1⟩
  rw [← Dict.has_iff_mem_keys, Dict.has, Option.isSome_iff_exists] at hi
  obtain ⟨r, hr⟩ := hi
  obtain ⟨_, slot, _, _, _, h1, _⟩ := c56_entries h hr
  exact ⟨slot, h1⟩

section examples
open Sample
example : (Sample.load basic).map (fun e => e.images.map (fun p => (String.ofList p.1, String.ofList p.2.path, p.2.scale))) =
    some [("img/a1", "./images/img/a1", none), ("img/a2", "./images/img/a2", none), ("b1", "./images/b1", some (1/2)),
      ("red/a1", "./images/red/a1", none)] := by decide +kernel
end examples

end Editor
end Spine
