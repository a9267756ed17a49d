import Verif.Lemmas.Reload
import Verif.Props.Document
import Verif.Props.Clean
/- Editors whose output can be loaded again. -/
set_option linter.unusedSectionVars false
set_option linter.unusedSimpArgs false
namespace Spine
open JVal Graph Container
variable {F : Type} [PyRt F]

/-! ### When image references are found -/

theorem foldE_isOk {α β : Type} {f : β → α → Except Err β} {P : α → Prop} (l : List α)
    (h : ∀ a ∈ l, ∀ b, (∃ r, f b a = .ok r) ↔ P a) (b : β) : (∃ r, Graph.foldE f b l = .ok r) ↔ ∀ a ∈ l, P a := by
  induction l generalizing b with
  | nil => simp [Graph.foldE]
  | cons x l ih =>
    have ih := ih (fun a ha => h a (by simp [ha]))
    have hx := h x (by simp) b
    simp only [Graph.foldE, List.mem_cons, forall_eq_or_imp]
    cases hf : f b x with
    | error e =>
      rw [hf] at hx
      simp only [reduceCtorEq, exists_false, false_iff] at hx ⊢
      exact fun h => hx h.1
    | ok b' =>
      rw [hf] at hx
      simp only [ih b']
      have hp : P x := hx.1 ⟨b', rfl⟩
      simp [hp]

namespace Editor

/-- the folder of `get_images_references` -/
def folderOf (skel : Dict (JVal F)) : JVal F := (Dict.get? skel s!!"images").getD (.str s!!"./images/")

/-- an attachment has an image that can be listed -/
def AttRef (folder : JVal F) (key : Str) (x : Att F) : Prop :=
  x.kind = .path ∨ ((∃ i, imageOf key x = .ok i) ∧ ∃ f, folder = .str f)

theorem refStep_isOk (folder : JVal F) (sc : F) (p : Str × Att F) (acc : Dict (ImageRef F)) :
    (∃ r, refStep folder sc acc p = .ok r) ↔ AttRef folder p.1 p.2 := by
  unfold refStep AttRef
  by_cases hk : p.2.kind = .path
  · simp [hk]
  · rw [if_neg hk]
    simp only [hk, false_or]
    cases hi : imageOf p.1 p.2 with
    | error e => simp [bind, Except.bind]
    | ok i =>
      cases folder <;> simp [joinFolder, bind, Except.bind, pure, Except.pure]

/-- the slot entry of a skin can be listed -/
def SlotRef (a : AnimData F) (folder : JVal F) (p : Str × Dict (Att F)) : Prop :=
  (∃ sc, AnimData.slotScale a (AnimData.getSlot a p.1) = .ok sc) ∧ ∀ q ∈ p.2, AttRef folder q.1 q.2

theorem refSlot_isOk (a : AnimData F) (folder : JVal F) (p : Str × Dict (Att F)) (acc : Dict (ImageRef F)) :
    (∃ r, refSlot a folder acc p = .ok r) ↔ SlotRef a folder p := by
  unfold refSlot SlotRef
  cases AnimData.slotScale a (AnimData.getSlot a p.1) with
  | error e => simp
  | ok sc =>
    simp only [Except.ok.injEq, exists_eq', true_and]
    exact foldE_isOk p.2 (fun q _ b => refStep_isOk folder sc q b) acc

/-- all images can be listed -/
def RefsOk (s : SpineDoc F) : Prop :=
  ∀ k ∈ s.data.skins, s.version.is38 = true ∧ ∀ p ∈ k.attachments, SlotRef s.data (folderOf s.skeleton) p

theorem imagesReferences_ok (s : SpineDoc F) : (∃ im, imagesReferences s = .ok im) ↔ RefsOk s := by
  unfold imagesReferences RefsOk
  refine foldE_isOk s.data.skins ?_ []
  intro k _ acc
  unfold refSkin
  cases s.version.is38 with
  | false => simp
  | true =>
    simp only [if_true, true_and]
    exact foldE_isOk k.attachments (fun p _ b => refSlot_isOk _ _ p b) acc

end Editor

/-! ### When the graph of an output can be built -/

namespace GShape
open SpineNodes Plan

theorem readAtt_toJson (b : Bool) {k : Str} {x : Att F} (h : x.Sane) : ∃ y, readAtt (k, x.toJson b) = .ok y := by
  obtain ⟨i, hi⟩ := ImageName.exists k x
  refine ⟨(k, i, x.toJson b), ?_⟩
  unfold readAtt
  rw [imageName_toJson h b hi]; rfl

theorem mapE_isOk {α β : Type} {f : α → Except Err β} {l : List α} (h : ∀ x ∈ l, ∃ y, f x = .ok y) : ∃ m, mapE f l = .ok m := by
  induction l with
  | nil => exact ⟨[], rfl⟩
  | cons x l ih =>
    obtain ⟨y, hy⟩ := h x (by simp)
    obtain ⟨m, hm⟩ := ih (fun x hx => h x (by simp [hx]))
    exact ⟨y :: m, by simp only [mapE, hy, hm]⟩

theorem readSkin_isOk (b : Bool) (s : Skin F) (n : Str) (hx : ∀ e k x, (n, e) ∈ s.attachments → (k, x) ∈ e → x.Sane) :
    ∃ l, readSkin (.str n) (s.toJson b) = .ok l := by
  unfold readSkin
  by_cases hne : s.attachments = []
  · have : dotGet (s.toJson b) s!!"attachments" = .ok .null := by
      unfold Skin.toJson dotGet
      rw [hne]
      by_cases hn : s.name = [] <;> simp [Dict.get?, hn]
    rw [this]
    exact ⟨[], rfl⟩
  · have : dotGet (s.toJson b) s!!"attachments" = .ok (.dict (dmap (fun e => .dict (dmap (·.toJson b) e)) s.attachments)) := by
      unfold Skin.toJson dotGet
      rw [if_neg hne]
      by_cases hn : s.name = [] <;> simp [Dict.get?, hn] <;> rfl
    rw [this]
    have ht : truthy (JVal.dict (dmap (fun e => .dict (dmap (Att.toJson b) e)) s.attachments) : JVal F) = true := by
      cases hc : s.attachments with
      | nil => exact absurd hc hne
      | cons => rfl
    simp only [bind, Except.bind, ht, if_true, skinEntry, get?_dmap]
    cases hg : Dict.get? s.attachments n with
    | none => exact ⟨[], rfl⟩
    | some ent =>
      simp only [Option.map_some, Option.getD_some, dictItems]
      refine mapE_isOk ?_
      rintro ⟨k, v⟩ hm
      obtain ⟨x, hx', rfl⟩ := (mem_dmap _ _ _ _).1 hm
      exact readAtt_toJson b (hx ent k x (Dict.mem_of_get? hg) hx')

theorem docList_toJson {d : Dict (JVal F)} {k : Str} {l : List (JVal F)} (h : Dict.get? d k = if l = [] then none else some (.list l)) :
    docList (.dict d) k = .ok l := by
  simp only [docList, getIter, h]
  split
  · rename_i hh
    split at hh
    · rename_i h0; rw [h0]
    · cases hh
  · rename_i v hh
    split at hh
    · cases hh
    · injection hh with hh; subst hh; rfl

theorem read_isOk (s : SpineDoc F) (hb : ∀ b ∈ s.data.bones, Bone.Good b) (hb0 : s.data.bones ≠ []) (hx : s.data.SaneAtts)
    (hi : ∀ a ∈ s.data.ik, ∃ y, readIk (ikCls.toJson s.version.is38 a) = .ok y) : ∃ sh, GShape.read s.toJson = .ok sh ∧
      All₂ (fun a y => readIk (ikCls.toJson s.version.is38 a) = .ok y) s.data.ik sh.iks := by
  obtain ⟨d, e, g1, g2, g3, g4⟩ := get?_doc s
  rw [e]
  obtain ⟨bs, h1⟩ : ∃ m, mapE readBone (s.data.bones.map (·.toJson s.version.is38)) = .ok m := by
    refine mapE_isOk ?_
    intro v hv
    obtain ⟨x, hx, rfl⟩ := List.mem_map.1 hv
    exact ⟨_, readBone_toJson _ x (hb x hx)⟩
  obtain ⟨is, h3⟩ : ∃ m, mapE readIk (s.data.ik.map (ikCls.toJson s.version.is38)) = .ok m := by
    refine mapE_isOk ?_
    intro v hv
    obtain ⟨x, hx, rfl⟩ := List.mem_map.1 hv
    exact hi x hx
  obtain ⟨ss, h2⟩ : ∃ m, mapE (readSlot (.dict d)) (s.data.slots.map (·.toJson s.version.is38)) = .ok m := by
    refine mapE_isOk ?_
    intro v hv
    obtain ⟨x, hxm, rfl⟩ := List.mem_map.1 hv
    obtain ⟨dx, ex, n1, n2⟩ := Slot.get?_toJson s.version.is38 x
    obtain ⟨css, hc⟩ : ∃ m, mapE (readSkin (.str x.name)) (s.data.skins.map (·.toJson s.version.is38)) = .ok m := by
      refine mapE_isOk ?_
      intro v hv
      obtain ⟨k, hk, rfl⟩ := List.mem_map.1 hv
      exact readSkin_isOk _ k x.name (fun e key y he hy => hx x.name key y ⟨k, hk, e, he, hy⟩)
    refine ⟨⟨x.name, x.bone.getD s!!"None", .dict dx, css.flatten⟩, ?_⟩
    have e1 : nameOf (JVal.dict dx) = .ok x.name := by simp only [nameOf, subscript, getItem, n1]; rfl
    have e2 : optId (JVal.dict dx) s!!"bone" = .ok (x.bone.getD s!!"None") := by
      simp only [optId, dotGet, n2]
      cases x.bone <;> rfl
    unfold readSlot
    rw [ex, e1, e2]
    simp only [bind, Except.bind, subscript, getItem, n1, g4, iter, hc]
    rfl
  have d2 : docList (.dict d) s!!"slots" = .ok (s.data.slots.map (·.toJson s.version.is38)) := by
    refine docList_toJson ?_
    rw [g2]; simp
  have d3 : docList (.dict d) s!!"ik" = .ok (s.data.ik.map (ikCls.toJson s.version.is38)) := by
    refine docList_toJson ?_
    rw [g3]; simp
  refine ⟨⟨bs, ss, is⟩, ?_, ?_⟩
  · unfold read
    simp only [bind, Except.bind, subscript, getItem, g1, if_neg hb0, iter, h1, d2, h2, d3, h3]
    rfl
  · rw [mapE_all₂, All₂.map_left] at h3
    exact h3

theorem read_iks {s : SpineDoc F} {sh : GShape F} (h : GShape.read s.toJson = .ok sh) :
    All₂ (fun a y => readIk (ikCls.toJson s.version.is38 a) = .ok y) s.data.ik sh.iks := by
  obtain ⟨d, e, g1, g2, g3, g4⟩ := get?_doc s
  have d3 : docList (.dict d) s!!"ik" = .ok (s.data.ik.map (ikCls.toJson s.version.is38)) := by
    refine docList_toJson ?_
    rw [g3]; simp
  rw [e] at h
  unfold read at h
  obtain ⟨bs, h1, h⟩ := bindOk h
  obtain ⟨bs', h2, h⟩ := bindOk h
  obtain ⟨bs'', h3, h⟩ := bindOk h
  obtain ⟨ss, h4, h⟩ := bindOk h
  obtain ⟨ss', h5, h⟩ := bindOk h
  obtain ⟨is, h6, h⟩ := bindOk h
  obtain ⟨is', h7, h⟩ := bindOk h
  injection h with h; subst h
  rw [d3] at h6
  injection h6 with h6; subst h6
  rw [mapE_all₂, All₂.map_left] at h7
  exact h7

end GShape

/-! ### Linked meshes and paths -/

/-- no linked mesh is linked to a path attachment -/
def AnimData.NoPathLink (a : AnimData F) : Prop :=
  ∀ s ∈ a.skins, ∀ t ∈ a.skins, ∀ slot key x p, s.Has slot key x → x.LinksTo t.name → t.Has slot key p → p.kind ≠ .path

namespace AnimData

theorem SkinRel.has {gone : Skin F} {n : Str} {s s' : Skin F} (h : SkinRel gone n s s') {slot key : Str} {x' : Att F} (hx : s'.Has slot key x') :
    ∃ x, s.Has slot key x ∧ (x' = x ∨ (x.LinksTo n ∧ ∃ p, gone.Has slot key p ∧ x' = relinked p x)) := by
  obtain ⟨d, hd, hx⟩ := hx
  rcases h.2 with ⟨_, rfl⟩ | ⟨_, h⟩
  · exact ⟨x', ⟨d, hd, hx⟩, .inl rfl⟩
  · obtain ⟨⟨slot', d0⟩, hd0, e1, h⟩ := h.right hd
    obtain ⟨⟨k', x⟩, hx0, e2, h⟩ := h.right hx
    simp only at e1 e2 h
    subst e1 e2
    refine ⟨x, ⟨d0, hd0, hx0⟩, ?_⟩
    cases h with
    | same _ => exact .inl rfl
    | copy h1 h2 h3 => exact .inr ⟨(linksTo_iff n x).1 h1, _, ⟨_, Dict.mem_of_get? h2, Dict.mem_of_get? h3⟩, rfl⟩

theorem relinked_links (p x : Att F) (n : Str) : (relinked p x).LinksTo n ↔ p.LinksTo n := by
  unfold Att.LinksTo
  rw [relinked_get?, if_neg (by decide)]
  exact Iff.rfl

theorem removeSkin_noPath {n : Str} {a a' : AnimData F} {r : List (Option Str) × List Str} (h : removeSkin n a = (.ok r, a'))
    (hp : a.NoPathLink) : a'.NoPathLink := by
  obtain ⟨gone, sk, h1, h2, h3, rfl⟩ := removeSkin_ok h
  obtain ⟨hg, hgn⟩ := getSkin_mem h1
  intro s' hs' t' ht' slot key x' p' hx hl hp'
  obtain ⟨s, hs, rs⟩ := h2.right (List.mem_filter.1 hs').1
  obtain ⟨t, ht, rt⟩ := h2.right (List.mem_filter.1 ht').1
  obtain ⟨x, hx, cx⟩ := SkinRel.has rs hx
  obtain ⟨p, hp0, cp⟩ := SkinRel.has rt hp'
  rw [rt.1] at hl
  rcases cp with rfl | ⟨hlp, p1, hp1, rfl⟩
  · rcases cx with rfl | ⟨_, p0, hp0', rfl⟩
    · exact hp s hs t ht slot key _ _ hx hl hp0
    · exact hp gone hg t ht slot key p0 _ hp0' ((relinked_links _ _ _).1 hl) hp0
  · exact hp t ht gone hg slot key p p1 hp0 (hgn ▸ hlp) hp1

theorem good_relinked {p x : Att F} (hp : Att.Good p) (hk : p.kind ≠ .path) (hx : Att.Good x) : Att.Good (relinked p x) := by
  have hs := relinked_sane hp.sane hx.sane (p := p) (x := x)
  have hkind : (relinked p x).kind = p.kind := rfl
  have hty : Dict.get? (relinked p x).attrs s!!"type" = Dict.get? p.attrs s!!"type" := by rw [relinked_get?, if_neg (by decide)]
  have hkeys : Dict.keys (relinked p x).attrs = Dict.keys p.attrs := by
    have hmem : ∀ k ∈ [s!!"name", s!!"path", s!!"width", s!!"height"], k ∈ Dict.keys p.attrs := by
      rw [hp.keys]
      rcases hp.kind with h | ⟨h, _⟩ | ⟨h, _⟩ | ⟨h, _⟩
      · rw [h]; simp only [AttKind.cls, regionCls]; decide
      · rw [h]; simp only [AttKind.cls, meshCls]; decide
      · rw [h]; simp only [AttKind.cls, linkedMeshCls]; decide
      · exact absurd h hk
    unfold relinked
    simp only [Dict.keys_set, hmem s!!"name" (by simp), hmem s!!"path" (by simp), hmem s!!"width" (by simp), hmem s!!"height" (by simp), if_true]
  refine ⟨by rw [hkeys, hkind]; exact hp.keys, ?_, ?_⟩
  · unfold Att.typed
    rw [List.all_eq_true]
    intro k hk
    cases hv : Dict.get? (relinked p x).attrs k with
    | none => rfl
    | some v =>
      rcases hs.text k hk v hv with rfl | ⟨t, rfl⟩ <;> rfl
  · rw [hkind, hty]; exact hp.kind

end AnimData
end Spine
