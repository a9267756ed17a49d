import Verif.Lemmas.SyncOps
/- `remove_skin` and `erase_skins`. -/
set_option linter.unusedSectionVars false
set_option linter.unusedSimpArgs false
namespace Spine
open JVal Graph Container
variable {F : Type} [PyRt F]

namespace AnimData

/-- what `remove_skin` did to one attachment -/
inductive Relinked (gone : Skin F) (n slot key : Str) (x : Att F) : Att F → Prop
  | same : linksTo n x = false → Relinked gone n slot key x x
  | copy {d p} : linksTo n x = true → Dict.get? gone.attachments slot = some d → Dict.get? d key = some p →
      Relinked gone n slot key x (relinked p x)

theorem relinkAtt_ok {gone : Skin F} {n slot key : Str} {x x' : Att F} (h : relinkAtt gone n slot key x = (.ok (), x')) :
    Relinked gone n slot key x x' := by
  unfold relinkAtt at h
  split at h
  · rename_i hl
    split at h
    · simp at h
    · rename_i d hd
      split at h
      · simp at h
      · rename_i p hp
        simp only [Prod.mk.injEq, true_and] at h
        rw [← h]; exact .copy hl hd hp
  · rename_i hl
    simp only [Prod.mk.injEq, true_and] at h
    rw [← h]; exact .same (by simpa using hl)

/-- what `remove_skin` did to one skin -/
def SkinRel (gone : Skin F) (n : Str) (s s' : Skin F) : Prop :=
  s'.name = s.name ∧ ((s.name = n ∧ s' = s) ∨ (s.name ≠ n ∧
    All₂ (fun p p' => p'.1 = p.1 ∧ All₂ (fun q q' => q'.1 = q.1 ∧ Relinked gone n p.1 q.1 q.2 q'.2) p.2 p'.2) s.attachments s'.attachments))

theorem relinkSkin_ok {gone : Skin F} {n : Str} {s s' : Skin F} (h : relinkSkin gone n s = (.ok (), s')) : SkinRel gone n s s' := by
  unfold relinkSkin at h
  split at h
  · rename_i hn
    simp only [Prod.mk.injEq, true_and] at h
    subst h
    exact ⟨rfl, .inl ⟨hn, rfl⟩⟩
  · rename_i hn
    simp only [Prod.mk.injEq] at h
    obtain ⟨h1, rfl⟩ := h
    refine ⟨rfl, .inr ⟨hn, ?_⟩⟩
    have h2 := (mapMutD_ok _ _ _).1 (Prod.ext h1 rfl)
    refine h2.mono ?_
    rintro p p' _ ⟨e1, e2⟩
    refine ⟨e1, ?_⟩
    have h3 := (mapMutD_ok _ _ _).1 e2
    refine h3.mono ?_
    rintro q q' _ ⟨e1, e2⟩
    exact ⟨e1, relinkAtt_ok e2⟩

theorem removeSkin_ok {n : Str} {a a' : AnimData F} {r : List (Option Str) × List Str} (h : removeSkin n a = (.ok r, a')) :
    ∃ gone sk, getSkin a n = some gone ∧ All₂ (SkinRel gone n) a.skins sk ∧ removedImages gone = .ok r ∧
      a' = { a with animations := dmap (dropDeform n) a.animations, skins := sk.filter (fun s => s.name ≠ n) } := by
  unfold removeSkin at h
  split at h
  · simp at h
  · rename_i gone hg
    simp only at h
    split at h
    · simp at h
    · rename_i u hu
      split at h
      · simp at h
      · rename_i r' hr
        simp only [Prod.mk.injEq, Except.ok.injEq] at h
        obtain ⟨rfl, rfl⟩ := h
        refine ⟨gone, _, hg, ?_, hr, rfl⟩
        have := (mapMut_ok _ _ _).1 (Prod.ext hu rfl)
        exact this.mono (fun _ _ _ h => relinkSkin_ok h)

theorem getSkin_mem {a : AnimData F} {n : Str} {s : Skin F} (h : getSkin a n = some s) : s ∈ a.skins ∧ s.name = n := by
  unfold getSkin at h
  have := List.find?_some h
  exact ⟨List.mem_of_find?_eq_some h, by simpa using this⟩

/-- where an attachment comes from -/
def AttFrom (n : Str) (a : AnimData F) (slot k : Str) (x' : Att F) : Prop :=
  ∃ x, a.HasAtt slot k x ∧ (x' = x ∨ (linksTo n x = true ∧ ∃ p, a.HasAtt slot k p ∧ x' = relinked p x))

theorem SkinRel.from {gone : Skin F} {n : Str} {a : AnimData F} (hg : gone ∈ a.skins) {s s' : Skin F} (hs : s ∈ a.skins) (h : SkinRel gone n s s') {slot k : Str} {d : Dict (Att F)} {x' : Att F}
    (hd : (slot, d) ∈ s'.attachments) (hx : (k, x') ∈ d) : AttFrom n a slot k x' := by
  rcases h.2 with ⟨_, rfl⟩ | ⟨_, h⟩
  · exact ⟨x', ⟨s', hs, d, hd, hx⟩, .inl rfl⟩
  · obtain ⟨⟨slot', d0⟩, hd0, e1, h⟩ := h.right hd
    obtain ⟨⟨k', x⟩, hx0, e2, h⟩ := h.right hx
    simp only at e1 e2 h
    subst e1 e2
    refine ⟨x, ⟨s, hs, d0, hd0, hx0⟩, ?_⟩
    cases h with
    | same _ => exact .inl rfl
    | copy h1 h2 h3 => exact .inr ⟨h1, _, ⟨gone, hg, _, Dict.mem_of_get? h2, Dict.mem_of_get? h3⟩, rfl⟩

theorem removeSkin_from {n : Str} {a a' : AnimData F} {r : List (Option Str) × List Str} (h : removeSkin n a = (.ok r, a')) {slot k : Str} {x' : Att F}
    (hx : a'.HasAtt slot k x') : AttFrom n a slot k x' := by
  obtain ⟨gone, sk, h1, h2, h3, rfl⟩ := removeSkin_ok h
  obtain ⟨s', hs', d, hd, hx⟩ := hx
  obtain ⟨s, hs, hr⟩ := h2.right (List.mem_filter.1 hs').1
  exact hr.from (getSkin_mem h1).1 hs hd hx

theorem relinked_get? (p x : Att F) (k : Str) : Dict.get? (relinked p x).attrs k =
    if k ∈ [s!!"name", s!!"path", s!!"width", s!!"height"] then some (x.attrs.val k) else Dict.get? p.attrs k := by
  unfold relinked
  simp only [Dict.get?_set, List.mem_cons, List.not_mem_nil, or_false]
  by_cases h1 : k = s!!"height"
  · subst h1; simp
  · by_cases h2 : k = s!!"width"
    · subst h2; simp
    · by_cases h3 : k = s!!"path"
      · subst h3; simp
      · by_cases h4 : k = s!!"name"
        · subst h4; simp
        · simp [h1, h2, h3, h4, eq_comm]

theorem relinked_text (p x : Att F) {k : Str} (hk : k ∈ [s!!"name", s!!"path"]) (t : Str) :
    Dict.get? (relinked p x).attrs k = some (.str t) ↔ Dict.get? x.attrs k = some (.str t) := by
  rw [relinked_get?, if_pos (by simp only [List.mem_cons, List.not_mem_nil, or_false] at hk ⊢; grind)]
  unfold Attrs.val
  cases Dict.get? x.attrs k with
  | none => simp
  | some v => simp

theorem relinked_noText (p x : Att F) {k : Str} (hk : k ∈ [s!!"name", s!!"path"]) : (relinked p x).NoText k ↔ x.NoText k := by
  unfold Att.NoText
  simp only [relinked_text p x hk]

theorem relinked_image (p x : Att F) {k i : Str} : ImageName k (relinked p x) i ↔ ImageName k x i := by
  have hp := relinked_noText p x (k := s!!"path") (by simp)
  have hn := relinked_noText p x (k := s!!"name") (by simp)
  constructor
  · intro h
    cases h with
    | path e n => exact .path ((relinked_text p x (by simp) _).1 e) n
    | name q e n => exact .name (hp.1 q) ((relinked_text p x (by simp) _).1 e) n
    | key q e => exact .key (hp.1 q) (hn.1 e)
  · intro h
    cases h with
    | path e n => exact .path ((relinked_text p x (by simp) _).2 e) n
    | name q e n => exact .name (hp.2 q) ((relinked_text p x (by simp) _).2 e) n
    | key q e => exact .key (hp.2 q) (hn.2 e)

theorem relinked_sane {p x : Att F} (hp : p.Sane) (hx : x.Sane) : (relinked p x).Sane := by
  refine ⟨?_, ?_⟩
  · exact Dict.nodup_keys_set (Dict.nodup_keys_set (Dict.nodup_keys_set (Dict.nodup_keys_set hp.nodup _ _) _ _) _ _) _ _
  · intro k hk v hv
    rw [relinked_get?, if_pos (by simp only [List.mem_cons, List.not_mem_nil, or_false] at hk ⊢; grind)] at hv
    injection hv with hv
    unfold Attrs.val at hv
    cases hg : Dict.get? x.attrs k with
    | none => rw [hg] at hv; exact .inl hv.symm
    | some w => rw [hg] at hv; simp only [Option.getD_some] at hv; subst hv; exact hx.text k hk _ hg

theorem cls_noDefault (kd : AttKind) (b : Bool) {k : Str} (hk : k ∈ [s!!"name", s!!"path", s!!"width", s!!"height"]) :
    Cls.dflt (AttKind.cls kd : Cls F) b k .null = .null := by
  simp only [List.mem_cons, List.not_mem_nil, or_false] at hk
  rcases hk with rfl | rfl | rfl | rfl <;> cases kd <;> cases b <;> rfl

theorem relinked_fixed {b : Bool} {p x : Att F} (hp : p.setDefaults b = p) : (relinked p x).setDefaults b = relinked p x := by
  have key : ∀ (y : Att F), y.setDefaults b = y ↔ (AttKind.cls y.kind).setDefaults b y.attrs = y.attrs := by
    intro y; cases y; simp [Att.setDefaults]
  rw [key] at hp ⊢
  show (AttKind.cls p.kind).setDefaults b _ = _
  refine Editor.Attrs.fixed_set (Editor.Attrs.fixed_set (Editor.Attrs.fixed_set (Editor.Attrs.fixed_set hp _ _ ?_) _ _ ?_) _ _ ?_) _ _ ?_
  all_goals exact fun _ => cls_noDefault _ _ (by simp)

theorem linksTo_kind {n : Str} {x : Att F} (h : linksTo n x = true) : x.kind = .linked := by
  unfold linksTo at h
  split at h
  · assumption
  · simp at h

/-- what `remove_skin` keeps -/
structure SkinKept (b : Bool) (a a' : AnimData F) : Prop where
  slots : a'.slots = a.slots
  bones : a'.bones = a.bones
  iks : a'.ik = a.ik
  dflt : a.setDefaults b = a → a'.setDefaults b = a'
  att : ∀ slot k x', a'.HasAtt slot k x' → ∃ x, a.HasAtt slot k x ∧ (∀ i, ImageName k x' i ↔ ImageName k x i) ∧ (x'.kind ≠ .path → x.kind ≠ .path)
  distinct : a.Distinct → a'.Distinct
  sane : a.SaneAtts → a'.SaneAtts
  anims : a.DistinctAnims → a'.DistinctAnims

theorem SkinKept.refl (b : Bool) (a : AnimData F) : SkinKept b a a :=
  ⟨rfl, rfl, rfl, id, fun _ _ x' h => ⟨x', h, fun _ => Iff.rfl, id⟩, id, id, id⟩

theorem SkinKept.trans {b : Bool} {a a' a'' : AnimData F} (h : SkinKept b a a') (h' : SkinKept b a' a'') : SkinKept b a a'' := by
  refine ⟨h'.slots.trans h.slots, h'.bones.trans h.bones, h'.iks.trans h.iks, fun x => h'.dflt (h.dflt x), ?_, fun x => h'.distinct (h.distinct x),
    fun x => h'.sane (h.sane x), fun x => h'.anims (h.anims x)⟩
  intro slot k x'' hx
  obtain ⟨x', h1, h2, h3⟩ := h'.att slot k x'' hx
  obtain ⟨x, g1, g2, g3⟩ := h.att slot k x' h1
  exact ⟨x, g1, fun i => (h2 i).trans (g2 i), fun h => g3 (h3 h)⟩

theorem SkinKept.uses {b : Bool} {a a' : AnimData F} (h : SkinKept b a a') {i : Str} (hi : a'.UsesImage i) : a.UsesImage i := by
  obtain ⟨slot, k, x', h1, h2, h3⟩ := hi
  obtain ⟨x, g1, g2, g3⟩ := h.att slot k x' h1
  exact ⟨slot, k, x, g1, g3 h2, (g2 i).1 h3⟩

theorem SkinKept.names {b : Bool} {a a' : AnimData F} (h : SkinKept b a a') (hn : a.NamesOk) : a'.NamesOk := by
  refine ⟨?_, ?_, ?_⟩
  · rw [h.slots]; exact hn.slots
  · intro slot k x' i hx hi
    obtain ⟨x, g1, g2, _⟩ := h.att slot k x' hx
    exact hn.images slot k x i g1 ((g2 i).1 hi)
  · intro slot k x' hx
    obtain ⟨x, g1, _, _⟩ := h.att slot k x' hx
    exact hn.keys slot k x g1

theorem removeSkin_kept (b : Bool) {n : Str} {a a' : AnimData F} {r : List (Option Str) × List Str} (h : removeSkin n a = (.ok r, a')) : SkinKept b a a' := by
  have hfrom := fun slot k x' (hx : a'.HasAtt slot k x') => removeSkin_from h hx
  obtain ⟨gone, sk, h1, h2, h3, rfl⟩ := removeSkin_ok h
  refine ⟨rfl, rfl, rfl, ?_, ?_, ?_, ?_, ?_⟩
  · intro hd
    rw [AnimData.fixed_iff] at hd ⊢
    obtain ⟨f1, f2, f3, f4, f5, f6, f7⟩ := hd
    refine ⟨f1, ?_, f3, f4, f5, f6, ?_⟩
    · rw [map_fixed_iff] at f2 ⊢
      intro s' hs'
      rw [Skin.fixed_iff]
      rintro ⟨slot, d⟩ hd ⟨k, x'⟩ hx
      have fix : ∀ slot k x, a.HasAtt slot k x → x.setDefaults b = x := by
        rintro slot k x ⟨s, hs, d, hd, hx⟩
        exact Skin.fixed_iff.1 (f2 s hs) _ hd _ hx
      obtain ⟨x, g1, g2⟩ := hfrom slot k x' ⟨s', hs', d, hd, hx⟩
      rcases g2 with rfl | ⟨_, p, g2, rfl⟩
      · exact fix _ _ _ g1
      · exact relinked_fixed (fix _ _ _ g2)
    · refine dmap_fixed_dmap f7 ?_
      intro x hx
      rw [Anim.fixed_iff] at hx ⊢
      obtain ⟨e1, e2, e3, e4, e5, e6, e7, e8⟩ := hx
      exact ⟨e1, e2, e3, e4, e5, e6, e7, dmap_fixed_filter e8 _⟩
  · intro slot k x' hx
    obtain ⟨x, g1, g2⟩ := hfrom slot k x' hx
    refine ⟨x, g1, ?_⟩
    rcases g2 with rfl | ⟨hl, p, g2, rfl⟩
    · exact ⟨fun _ => Iff.rfl, id⟩
    · refine ⟨fun i => relinked_image p x, fun _ => ?_⟩
      rw [linksTo_kind hl]; decide
  · intro hd s' hs'
    obtain ⟨s, hs, e1, hr⟩ := h2.right (List.mem_filter.1 hs').1
    rcases hr with ⟨_, rfl⟩ | ⟨_, hr⟩
    · exact hd _ hs
    · have : Dict.keys s'.attachments = Dict.keys s.attachments := by
        unfold Dict.keys
        exact (hr.map_eq (f := fun p => p.1) (g := fun p => p.1) (fun _ _ h => h.1.symm)).symm
      rw [this]; exact hd _ hs
  · intro hs slot k x' hx
    obtain ⟨x, g1, g2⟩ := hfrom slot k x' hx
    rcases g2 with rfl | ⟨_, p, g2, rfl⟩
    · exact hs _ _ _ g1
    · exact relinked_sane (hs _ _ _ g2) (hs _ _ _ g1)
  · intro hd
    refine ⟨?_, ?_, ?_⟩
    · rintro ⟨k, v⟩ hp
      obtain ⟨x, hx, rfl⟩ := (mem_dmap _ _ _ _).1 hp
      exact hd.slots (_, x) hx
    · rintro ⟨k, v⟩ hp
      obtain ⟨x, hx, rfl⟩ := (mem_dmap _ _ _ _).1 hp
      exact Dict.nodup_keys_del (hd.deform _ hx) _
    · show (Dict.keys (dmap _ _)).Nodup
      rw [keys_dmap]; exact hd.names

end AnimData

namespace Editor
variable {e e' : Editor F}
open AnimData

theorem removeSkins_cons {n : Str} {ns : List Str} {a a'' : AnimData F} {r : List (Option Str) × List Str}
    (h : removeSkins (n :: ns) a = (.ok r, a'')) : ∃ i s is rs a', removeSkin n a = (.ok (i, s), a') ∧ removeSkins ns a' = (.ok (is, rs), a'') ∧
      r = (i ++ is, s ++ rs) := by
  rw [removeSkins] at h
  split at h
  · simp at h
  · rename_i i s a' h1
    split at h
    · simp at h
    · rename_i is rs a2 h2
      simp only [Prod.mk.injEq, Except.ok.injEq] at h
      obtain ⟨rfl, rfl⟩ := h
      exact ⟨i, s, is, rs, a', h1, h2, rfl⟩

theorem removeSkins_kept (b : Bool) {names : List Str} : ∀ {a a' : AnimData F} {r : List (Option Str) × List Str},
    removeSkins names a = (.ok r, a') → SkinKept b a a' := by
  induction names with
  | nil => intro a a' r h; simp only [removeSkins, Prod.mk.injEq] at h; rw [← h.2]; exact .refl b a
  | cons n ns ih =>
    intro a a' r h
    obtain ⟨i, s, is, rs, a1, h1, h2, _⟩ := removeSkins_cons h
    exact (removeSkin_kept b h1).trans (ih h2)

theorem sync_cleanImages (hs : Sync e) (gone : List (Option Str)) (hg : ∀ i, e.data.UsesImage i → some i ∉ gone) : Sync (cleanImages gone e) := by
  refine ⟨⟨hs.ecore.core, hs.ecore.bones, hs.ecore.iks⟩, hs.dflt, hs.slots, hs.edge_of, hs.edge_slot, hs.att_parent, hs.att_child, hs.img_parent,
    hs.img_of, hs.slot_bone, ?_, hs.names, hs.imgs, hs.distinct, hs.sane, hs.anims⟩
  intro i hi
  obtain ⟨⟨j, r⟩, hp, rfl⟩ := List.mem_map.1 (hs.cover i hi)
  exact List.mem_map.2 ⟨(j, r), List.mem_filter.2 ⟨hp, by simpa using hg _ hi⟩, rfl⟩

/-- the editor between the removal of the skins and the cleaning -/
theorem sync_removeSkins {names : List Str} {a : AnimData F} {g : SGraph F} {r : List (Option Str) × List Str} (hs : Sync e)
    (h : removeSkins names e.data = (.ok r, a)) (hg : SpineNodes.create (e.withData a).toJson = .ok g) : Sync { e.withData a with graph := g } := by
  have hk := removeSkins_kept e.doc.version.is38 h
  refine sync_fresh (e := { e.withData a with graph := g }) ?_ ?_ (hk.dflt hs.dflt) (hk.distinct hs.distinct) (hk.sane hs.sane) (hk.anims hs.anims) ?_ ?_ (hk.names hs.names) hg
  · show ∀ b ∈ a.bones, _
    rw [hk.bones]; exact hs.ecore.bones
  · show KeysOf ikCls a.ik
    rw [hk.iks]; exact hs.ecore.iks
  · intro slot k x' hx
    obtain ⟨x, g1, _⟩ := hk.att slot k x' hx
    show ∃ s ∈ a.slots, _
    rw [hk.slots]; exact hs.slot_bone slot k x g1
  · intro i hi
    exact hs.cover i (hk.uses hi)

/-- an image without node is not in use -/
theorem Sync.image_node (hs : Sync e) {i : Str} (hi : e.data.UsesImage i) : HasNode e.graph (graphId .image i) := by
  obtain ⟨slot, k, x, h1, _, h3⟩ := hi
  exact (wf_edge_nodes hs.core.wf (hs.img_of slot k x i h1 h3)).2

theorem Sync.not_gone (hs : Sync e) {i : Str} (hi : e.data.UsesImage i) (l : List (Option Str)) :
    some i ∉ l.filter (fun i => (Graph.getNode e.graph (imageId i)).isNone) := by
  intro hm
  have := (List.mem_filter.1 hm).2
  obtain ⟨nd, hn⟩ := hs.image_node hi
  have e1 : imageId (some i) = graphId .image i := rfl
  rw [e1, hn] at this
  cases this

/-- images in use after cleaning were in use before -/
theorem clean_uses {safe : Bool} {r : List Str × List Str} (hs : Sync e) (h : cleanUnless safe e = (.ok r, e')) {i : Str} (hi : e'.data.UsesImage i) :
    e.data.UsesImage i := by
  unfold cleanUnless at h
  split at h
  · simp only [Prod.mk.injEq] at h; rw [h.2]; exact hi
  · obtain ⟨slots, L, A, B, I, g0, g1, g2, g3, bs, ss, is, an, hr⟩ := clean_run hs.core (ids := r.1) (atts := r.2) h
    obtain ⟨slot, k, x, h1, h2, h3⟩ := hi
    exact ⟨slot, k, x, ((hr.hasAtt hs _ _ _).1 h1).1, h2, h3⟩

theorem sync_eraseSkins {names : List Str} {safe : Bool} {r : List Str × List Str} {gone : List (Option Str)} (hs : Sync e)
    (h : eraseSkins names safe e = (.ok (r, gone), e')) : Sync e' := by
  obtain ⟨imgs, regions, a, g, e1, h1, h2, h3, h4, rfl⟩ := eraseSkins_ok h
  have s1 := sync_removeSkins hs h1 h2
  have s2 := sync_cleanUnless s1 h4
  refine sync_cleanImages s2 gone ?_
  intro i hi
  rw [h3]
  exact s1.not_gone (clean_uses s1 h4 hi) _

/-! ### Histories -/

/-- the editors reached from a document with unambiguous names: by any successful call, by a call of `scale_animation` with any
outcome, and by a failing `erase_animations` in safe mode -/
inductive Ran : Editor F → Prop
  | load {doc : JVal F} {e : Editor F} : doc.Proper → load doc = .ok e → e.data.NamesOk → Ran e
  | run {e e' : Editor F} (o : Op F) : Ran e → o.run e = (.ok (), e') → Ran e'
  | scaled {e : Editor F} (sx sy : Num F) : Ran e → Ran (scale sx sy e).2
  | failedErase {e : Editor F} (arg : NamesArg) (strict : Bool) : Ran e → Ran (eraseAnims arg strict true e).2

theorem run_eraseSkins {n : List Str} {s : Bool} (h : Op.run (.eraseSkins n s) e = (.ok (), e')) :
    ∃ r gone, eraseSkins n s e = (.ok (r, gone), e') := by
  simp only [Op.run, Prod.mk.injEq] at h
  obtain ⟨h1, h2⟩ := h
  generalize hq : eraseSkins n s e = q at h1 h2
  obtain ⟨q1, q2⟩ := q
  cases q1 with
  | error x => cases h1
  | ok v => exact ⟨v.1, v.2, by rw [← h2]⟩

theorem run_eraseAnims {arg : NamesArg} {t s : Bool} (h : Op.run (.eraseAnims arg t s) e = (.ok (), e')) :
    ∃ r, eraseAnims arg t s e = (.ok r, e') := by
  simp only [Op.run, Prod.mk.injEq] at h
  obtain ⟨h1, h2⟩ := h
  generalize hq : eraseAnims arg t s e = q at h1 h2
  obtain ⟨q1, q2⟩ := q
  cases q1 with
  | error x => cases h1
  | ok v => exact ⟨v, by rw [← h2]⟩

theorem run_clean (h : Op.run .clean e = (.ok (), e')) : ∃ r, clean e = (.ok r, e') := by
  simp only [Op.run, Prod.mk.injEq] at h
  obtain ⟨h1, h2⟩ := h
  generalize hq : clean e = q at h1 h2
  obtain ⟨q1, q2⟩ := q
  cases q1 with
  | error x => cases h1
  | ok v => exact ⟨v, by rw [← h2]⟩

theorem Ran.sync (h : Ran e) : Sync e := by
  induction h with
  | load h1 h2 h3 => exact sync_load h1 h2 h3
  | run o _ h ih =>
    cases o with
    | eraseSkins n s => obtain ⟨r, gone, h⟩ := run_eraseSkins h; exact sync_eraseSkins ih h
    | eraseAnims arg t s => obtain ⟨r, h⟩ := run_eraseAnims h; exact sync_eraseAnims ih h
    | clean => obtain ⟨r, h⟩ := run_clean h; exact sync_clean ih h
    | scale sx sy =>
      have : (scale sx sy _).2 = _ := congrArg (·.2) h
      simp only at this
      rw [← this]; exact sync_scale sx sy ih
  | scaled sx sy _ ih => exact sync_scale sx sy ih
  | failedErase arg strict _ ih => exact sync_eraseAnims_safe ih

end Editor
end Spine
