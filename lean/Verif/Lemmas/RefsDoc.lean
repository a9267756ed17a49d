import Verif.Lemmas.RefsSlots
/- References in the document as it is written. -/
set_option linter.unusedSectionVars false
set_option linter.unusedSimpArgs false
namespace Spine
open JVal Graph Container
variable {F : Type} [PyRt F]

section parts
variable (s : SpineDoc F)

theorem items_bones : (s.toJson.part s!!"bones").items = s.data.bones.map (·.toJson s.version.is38) := by
  unfold part; rw [Editor.field_doc]
  simp [AnimData.toJson, get?_append, get?_jl_ne, get?_jd_ne, Dict.get?, part_jl]

theorem items_slots : (s.toJson.part s!!"slots").items = s.data.slots.map (·.toJson s.version.is38) := by
  unfold part; rw [Editor.field_doc]
  simp [AnimData.toJson, get?_append, get?_jl_ne, get?_jd_ne, Dict.get?, part_jl]

theorem items_skins : (s.toJson.part s!!"skins").items = s.data.skins.map (·.toJson s.version.is38) := by
  unfold part; rw [Editor.field_doc]
  simp [AnimData.toJson, get?_append, get?_jl_ne, get?_jd_ne, Dict.get?, part_jl, items]

theorem items_ik : (s.toJson.part s!!"ik").items = s.data.ik.map (ikCls.toJson s.version.is38) := by
  unfold part; rw [Editor.field_doc]
  simp [AnimData.toJson, get?_append, get?_jl_ne, get?_jd_ne, Dict.get?, part_jl]

theorem animsOf_toJson : s.toJson.animsOf = s.data.animations.map (fun p => p.2.toJson s.version.is38) := by
  unfold animsOf part; rw [Editor.field_doc]
  simp [AnimData.toJson, get?_append, get?_jl_ne, get?_jd_ne, Dict.get?, part_jd, dmap]

end parts

theorem Skin.nameAt_toJson (v : Bool) (t : Skin F) : (t.toJson v).nameAt s!!"name" = .str t.name := by
  simp only [nameAt, field, entries, Skin.toJson]
  by_cases hn : t.name = [] <;> by_cases ha : t.attachments = [] <;> simp [hn, ha, Dict.get?]

theorem Skin.entries_toJson (v : Bool) (t : Skin F) : ((t.toJson v).part s!!"attachments").entries =
    dmap (fun m => .dict (dmap (·.toJson v) m)) t.attachments := by
  simp only [part, field, entries, Skin.toJson]
  by_cases hn : t.name = [] <;> by_cases ha : t.attachments = [] <;> simp [hn, ha, Dict.get?, dmap]

theorem offset_nameAt (v : Bool) (o : Str × Int) : (offsetToJson v o : JVal F).nameAt s!!"slot" = .str o.1 := by
  obtain ⟨n, i⟩ := o
  have hd : Dict.get? ((offsetCls (F := F)).defaultsFor v) s!!"slot" = some (.str []) := by cases v <;> rfl
  have h1 : (offsetCls (F := F)).emits v s!!"slot" (.str n) = !decide (n = []) := by
    unfold Cls.emits
    rw [hd]
    cases n <;> simp [JVal.isNull, pyEq]
  unfold nameAt field offsetToJson Cls.toJson entries
  by_cases hn : n = []
  · subst hn
    rw [List.filter_cons_of_neg (by simp [h1])]
    by_cases h2 : (offsetCls (F := F)).emits v s!!"offset" (.int i) = true <;> simp [h2, Dict.get?]
  · rw [List.filter_cons_of_pos (by simpa [h1] using hn)]
    simp [Dict.get?]

theorem DrawTl.items_offsets (v : Bool) (t : DrawTl F) : ((t.toJson v).part s!!"offsets").items = t.offsets.map (offsetToJson v) := by
  by_cases h : drawCls.emits v s!!"time" t.time = true <;> simp [h, DrawTl.toJson, part, field, entries, Dict.get?, items]

theorem hasKey_dict {α : Type} (f : α → JVal F) (d : Dict α) (k : Str) : (JVal.dict (dmap f d)).hasKey k ↔ k ∈ Dict.keys d := by
  unfold hasKey entries dmap Dict.keys
  simp

theorem hasKey_of {α : Type} {v : JVal F} {f : α → JVal F} {d : Dict α} (h : v.entries = dmap f d) (k : Str) : v.hasKey k ↔ k ∈ Dict.keys d := by
  unfold hasKey; rw [h]
  simp [dmap, Dict.keys]

namespace Anim
variable (v : Bool) (x : Anim F)

theorem part_slots : ((x.toJson v).part s!!"slots").entries = dmap (·.toJson v) x.slots := by
  unfold part; rw [field_slots, part_jd]
theorem part_bones : ((x.toJson v).part s!!"bones").entries = dmap (·.toJson v) x.bones := by
  unfold part; rw [field_bones, part_jd]
theorem part_deform : ((x.toJson v).part s!!"deform").entries = dmap (fun d => .dict (dmap (jdict deformCls v) d)) x.deform := by
  unfold part; rw [field_deform, part_jd]
theorem part_draw : ((x.toJson v).part s!!"drawOrder").items = x.drawOrder.map (·.toJson v) := by
  unfold part; rw [field_draw, part_jl]

end Anim

namespace Editor
open AnimData
variable {e e' : Editor F}

theorem slot_name_at (v : Bool) (s : Slot F) : (s.toJson v).nameAt s!!"name" = .str s.name := by
  have h := congrArg Prod.fst (tagS_toJson v s)
  unfold tagS at h
  unfold nameAt
  simp only at h
  rw [h]; rfl

theorem slot_bone_at (v : Bool) (s : Slot F) : (s.toJson v).field s!!"bone" = s.bone.map .str := congrArg Prod.snd (tagS_toJson v s)

theorem bone_name_at (v : Bool) (b : Bone F) (hb : b.Good) : (b.toJson v).nameAt s!!"name" = .str b.name := by
  have h := congrArg Prod.fst (tagB_toJson v b hb)
  unfold tagB at h
  unfold nameAt
  simp only at h
  rw [h]; rfl

theorem bone_parent_at (v : Bool) (b : Bone F) (hb : b.Good) : (b.toJson v).field s!!"parent" = b.parent.map .str :=
  congrArg Prod.snd (tagB_toJson v b hb)

theorem names_slots (n : Str) : e.toJson.namesIn s!!"slots" n ↔ e.data.HasSlot n := by
  unfold namesIn HasSlot toJson
  rw [items_slots]
  simp only [List.mem_map]
  constructor
  · rintro ⟨_, ⟨s, hs, rfl⟩, h⟩
    rw [slot_name_at] at h
    exact ⟨s, hs, by injection h⟩
  · rintro ⟨s, hs, rfl⟩
    exact ⟨_, ⟨s, hs, rfl⟩, slot_name_at _ s⟩

theorem names_skins (n : Str) : e.toJson.namesIn s!!"skins" n ↔ ∃ s ∈ e.data.skins, s.name = n := by
  unfold namesIn toJson
  rw [items_skins]
  simp only [List.mem_map]
  constructor
  · rintro ⟨_, ⟨s, hs, rfl⟩, h⟩
    rw [Skin.nameAt_toJson] at h
    exact ⟨s, hs, by injection h⟩
  · rintro ⟨s, hs, rfl⟩
    exact ⟨_, ⟨s, hs, rfl⟩, Skin.nameAt_toJson _ s⟩

theorem mem_anims (x : JVal F) : x ∈ e.toJson.animsOf ↔ ∃ p ∈ e.data.animations, x = p.2.toJson e.doc.version.is38 := by
  unfold toJson
  rw [animsOf_toJson]
  simp only [List.mem_map]
  exact ⟨fun ⟨p, h, e⟩ => ⟨p, h, e.symm⟩, fun ⟨p, h, e⟩ => ⟨p, h, e.symm⟩⟩

theorem slots_iff : (∀ n, e.toJson.SlotRef n → e.toJson.namesIn s!!"slots" n) ↔ SlotsOk e.data := by
  simp only [names_slots]
  constructor
  · intro h
    refine ⟨?_, ?_, ?_, ?_⟩
    · intro s hs n hn
      refine h n (.skin (s := s.toJson e.doc.version.is38) ?_ ?_)
      · unfold toJson; rw [items_skins]; exact List.mem_map.2 ⟨s, hs, rfl⟩
      · exact (hasKey_of (Skin.entries_toJson _ s) n).2 hn
    · intro p hp n hn
      exact h n (.timeline ((mem_anims _).2 ⟨p, hp, rfl⟩) ((hasKey_of (Anim.part_slots _ _) n).2 hn))
    · intro p hp skin d hd n hn
      refine h n (.deform (skin := skin) ((mem_anims _).2 ⟨p, hp, rfl⟩) (d := .dict (dmap (Anim.jdict deformCls e.doc.version.is38) d)) ?_ ?_)
      · rw [Anim.part_deform]; exact (mem_dmap _ _ _ _).2 ⟨d, hd, rfl⟩
      · exact (hasKey_dict _ _ _).2 hn
    · intro p hp t ht n hn
      obtain ⟨⟨n', i⟩, ho, rfl⟩ := List.mem_map.1 hn
      refine h n' (.draw ((mem_anims _).2 ⟨p, hp, rfl⟩) (t := t.toJson e.doc.version.is38) (o := offsetToJson e.doc.version.is38 (n', i)) ?_ ?_ ?_)
      · rw [Anim.part_draw]; exact List.mem_map.2 ⟨t, ht, rfl⟩
      · rw [DrawTl.items_offsets]; exact List.mem_map.2 ⟨_, ho, rfl⟩
      · exact offset_nameAt _ _
  · intro h n hn
    cases hn with
    | skin hs hk =>
      unfold toJson at hs
      rw [items_skins] at hs
      obtain ⟨s, hs1, rfl⟩ := List.mem_map.1 hs
      exact h.skins s hs1 n ((hasKey_of (Skin.entries_toJson _ s) n).1 hk)
    | timeline hx hk =>
      obtain ⟨p, hp, rfl⟩ := (mem_anims _).1 hx
      exact h.slots p hp n ((hasKey_of (Anim.part_slots _ _) n).1 hk)
    | deform hx hd hk =>
      obtain ⟨p, hp, rfl⟩ := (mem_anims _).1 hx
      rw [Anim.part_deform] at hd
      obtain ⟨d, hd1, rfl⟩ := (mem_dmap _ _ _ _).1 hd
      exact h.deform p hp _ d hd1 n ((hasKey_dict _ _ _).1 hk)
    | draw hx ht ho hn =>
      obtain ⟨p, hp, rfl⟩ := (mem_anims _).1 hx
      rw [Anim.part_draw] at ht
      obtain ⟨t, ht1, rfl⟩ := List.mem_map.1 ht
      rw [DrawTl.items_offsets] at ho
      obtain ⟨o, ho1, rfl⟩ := List.mem_map.1 ho
      rw [offset_nameAt] at hn
      injection hn with hn
      exact hn ▸ h.draw p hp t ht1 o.1 (List.mem_map.2 ⟨_, ho1, rfl⟩)

theorem skins_iff : (∀ n, e.toJson.SkinRef n → e.toJson.namesIn s!!"skins" n) ↔ SkinsOk e.data := by
  simp only [names_skins]
  constructor
  · intro h p hp k hk
    exact h k ⟨_, (mem_anims _).2 ⟨p, hp, rfl⟩, (hasKey_of (Anim.part_deform _ _) k).2 hk⟩
  · rintro h n ⟨x, hx, hk⟩
    obtain ⟨p, hp, rfl⟩ := (mem_anims _).1 hx
    exact h p hp n ((hasKey_of (Anim.part_deform _ _) n).1 hk)

theorem has_attachment (skin slot key : Str) : e.toJson.HasAttachment skin slot key ↔
    ∃ s ∈ e.data.skins, s.name = skin ∧ ∃ m, (slot, m) ∈ s.attachments ∧ key ∈ Dict.keys m := by
  unfold HasAttachment toJson
  rw [items_skins]
  constructor
  · rintro ⟨_, hs, hn, t, ht, hk⟩
    obtain ⟨s, hs1, rfl⟩ := List.mem_map.1 hs
    rw [Skin.nameAt_toJson] at hn
    rw [Skin.entries_toJson] at ht
    obtain ⟨m, hm, rfl⟩ := (mem_dmap _ _ _ _).1 ht
    exact ⟨s, hs1, by injection hn, m, hm, (hasKey_dict _ _ _).1 hk⟩
  · rintro ⟨s, hs, rfl, m, hm, hk⟩
    refine ⟨_, List.mem_map.2 ⟨s, hs, rfl⟩, Skin.nameAt_toJson _ s, .dict (dmap (·.toJson e.doc.version.is38) m), ?_, ?_⟩
    · rw [Skin.entries_toJson]; exact (mem_dmap _ _ _ _).2 ⟨m, hm, rfl⟩
    · exact (hasKey_dict _ _ _).2 hk

theorem deform_ref (skin slot key : Str) : e.toJson.DeformRef skin slot key ↔
    ∃ p ∈ e.data.animations, ∃ d, (skin, d) ∈ p.2.deform ∧ ∃ t, (slot, t) ∈ d ∧ key ∈ Dict.keys t := by
  unfold DeformRef
  constructor
  · rintro ⟨x, hx, d, t, hd, ht, hk⟩
    obtain ⟨p, hp, rfl⟩ := (mem_anims _).1 hx
    rw [Anim.part_deform] at hd
    obtain ⟨d, hd1, rfl⟩ := (mem_dmap _ _ _ _).1 hd
    obtain ⟨t, ht1, rfl⟩ := (mem_dmap _ _ _ _).1 ht
    exact ⟨p, hp, d, hd1, t, ht1, (hasKey_dict _ _ _).1 hk⟩
  · rintro ⟨p, hp, d, hd, t, ht, hk⟩
    refine ⟨_, (mem_anims _).2 ⟨p, hp, rfl⟩, .dict (dmap (Anim.jdict deformCls e.doc.version.is38) d), Anim.jdict deformCls e.doc.version.is38 t, ?_, ?_, ?_⟩
    · rw [Anim.part_deform]; exact (mem_dmap _ _ _ _).2 ⟨d, hd, rfl⟩
    · exact (mem_dmap _ _ _ _).2 ⟨t, ht, rfl⟩
    · exact (hasKey_dict _ _ _).2 hk

theorem deforms_iff : (∀ skin slot key, e.toJson.DeformRef skin slot key → e.toJson.HasAttachment skin slot key) ↔ DeformsOk e.data := by
  simp only [has_attachment, deform_ref]
  constructor
  · intro h p hp skin d hd slot t ht key hk
    exact h skin slot key ⟨p, hp, d, hd, t, ht, hk⟩
  · rintro h skin slot key ⟨p, hp, d, hd, t, ht, hk⟩
    exact h p hp skin d hd slot t ht key hk

/-! ### What the calls leave of the references -/

theorem anim_back (h : RestE e e') {x' : JVal F} (hx : x' ∈ e'.toJson.animsOf) : ∃ x ∈ e.toJson.animsOf, TrimmedAnim x x' := by
  obtain ⟨l, h1, h2⟩ := h.json.animations
  obtain ⟨p', hp', rfl⟩ := List.mem_map.1 hx
  obtain ⟨p, hp, _, ht⟩ := h2.right hp'
  exact ⟨p.2, List.mem_map.2 ⟨p, h1.subset hp, rfl⟩, ht⟩

theorem TrimmedAnim_part {x x' : JVal F} (h : TrimmedAnim x x') {k : Str} (hk : k ∈ [s!!"bones", s!!"ik", s!!"transform", s!!"path", s!!"events"]) :
    x'.part k = x.part k := by
  unfold part; rw [h.kept k hk]

theorem items_ik_held (h : Held e e') : (e'.toJson.part s!!"ik").items = (e.toJson.part s!!"ik").items := by
  unfold toJson
  rw [items_ik, items_ik]
  exact h.iks

theorem part_kept (h : RestE e e') {k : Str} (hk : k ∈ [s!!"skeleton", s!!"events", s!!"transform", s!!"path"]) : e'.toJson.part k = e.toJson.part k := by
  unfold part; rw [h.json.kept k hk]

theorem items_constraint (h : RestE e e') (h' : Held e e') {k : Str} (hk : k ∈ [s!!"ik", s!!"transform", s!!"path"]) :
    (e'.toJson.part k).items = (e.toJson.part k).items := by
  simp only [List.mem_cons, List.not_mem_nil, or_false] at hk
  rcases hk with rfl | rfl | rfl
  · exact items_ik_held h'
  · rw [part_kept h (by simp)]
  · rw [part_kept h (by simp)]

theorem names_constraint (h : RestE e e') (h' : Held e e') {k : Str} (hk : k ∈ [s!!"ik", s!!"transform", s!!"path"]) (n : Str) :
    e'.toJson.namesIn k n ↔ e.toJson.namesIn k n := by
  unfold namesIn; rw [items_constraint h h' hk]

/-- the tags of the bones, as they are written -/
theorem tags_bones (hb : ∀ b ∈ e.data.bones, Bone.Good b) : (e.toJson.part s!!"bones").items.map tagB = e.data.bones.map jB := by
  unfold toJson
  rw [items_bones, List.map_map]
  exact List.map_congr_left (fun b h => tagB_toJson _ b (hb b h))

theorem tags_slots : (e.toJson.part s!!"slots").items.map tagS = e.data.slots.map jS := by
  unfold toJson
  rw [items_slots, List.map_map]
  exact List.map_congr_left (fun b h => tagS_toJson _ b)

theorem bones_held (hb : ∀ b ∈ e.data.bones, Bone.Good b) (hb' : ∀ b ∈ e'.data.bones, Bone.Good b) (h : Held e e') :
    (e'.toJson.part s!!"bones").items.map tagB = (e.toJson.part s!!"bones").items.map tagB := by
  rw [tags_bones hb, tags_bones hb', h.bones]

theorem names_bones (h : (e'.toJson.part s!!"bones").items.map tagB = (e.toJson.part s!!"bones").items.map tagB) (n : Str) :
    e'.toJson.namesIn s!!"bones" n ↔ e.toJson.namesIn s!!"bones" n := by
  have key : ∀ v : JVal F, v.namesIn s!!"bones" n ↔ ∃ t ∈ (v.part s!!"bones").items.map tagB, t.1.getD (.str []) = .str n := by
    intro v
    simp only [List.mem_map]
    exact ⟨fun ⟨x, h, e⟩ => ⟨_, ⟨x, h, rfl⟩, e⟩, fun ⟨_, ⟨x, h, e⟩, e'⟩ => ⟨x, h, by subst e; exact e'⟩⟩
  rw [key, key, h]

theorem boneRef_back (hr : RestE e e') (hh : Held e e') (hb : (e'.toJson.part s!!"bones").items.map tagB = (e.toJson.part s!!"bones").items.map tagB)
    {n : Str} (h : e'.toJson.BoneRef n) : e.toJson.BoneRef n := by
  cases h with
  | parent h1 h2 =>
    have := List.mem_map_of_mem (f := tagB) h1
    rw [hb] at this
    obtain ⟨b, h3, h4⟩ := List.mem_map.1 this
    exact .parent h3 ((congrArg Prod.snd h4).trans h2)
  | slot h1 h2 =>
    have := List.mem_map_of_mem (f := tagS) h1
    rw [tags_slots] at this
    have := hh.slots.subset this
    rw [← tags_slots] at this
    obtain ⟨b, h3, h4⟩ := List.mem_map.1 this
    exact .slot h3 ((congrArg Prod.snd h4).trans h2)
  | bones hk h1 h2 => rw [items_constraint hr hh hk] at h1; exact .bones hk h1 h2
  | bone h1 h2 => rw [items_constraint hr hh (by simp)] at h1; exact .bone h1 h2
  | target hk h1 h2 =>
    rw [items_constraint hr hh (by simp only [List.mem_cons, List.not_mem_nil, or_false] at hk ⊢; grind)] at h1
    exact .target hk h1 h2
  | timeline hx hk =>
    obtain ⟨x, h1, h2⟩ := anim_back hr hx
    rw [TrimmedAnim_part h2 (by simp)] at hk
    exact .timeline h1 hk

theorem constraintRef_back (hr : RestE e e') {k : Str} (hk : k ∈ [s!!"ik", s!!"transform", s!!"path"]) {n : Str} (h : e'.toJson.ConstraintRef k n) :
    e.toJson.ConstraintRef k n := by
  obtain ⟨x, hx, h⟩ := h
  obtain ⟨x, h1, h2⟩ := anim_back hr hx
  rw [TrimmedAnim_part h2 (by simp only [List.mem_cons, List.not_mem_nil, or_false] at hk ⊢; grind)] at h
  exact ⟨x, h1, h⟩

theorem eventRef_back (hr : RestE e e') {n : Str} (h : e'.toJson.EventRef n) : e.toJson.EventRef n := by
  obtain ⟨x, hx, t, ht, h⟩ := h
  obtain ⟨x, h1, h2⟩ := anim_back hr hx
  rw [TrimmedAnim_part h2 (by simp)] at ht
  exact ⟨x, h1, t, ht, h⟩

theorem pathTarget_back (hr : RestE e e') {n : Str} : e'.toJson.PathTarget n ↔ e.toJson.PathTarget n := by
  unfold PathTarget; rw [part_kept hr (by simp)]

theorem deformRef_back (hr : RestE e e') {a b c : Str} (h : e'.toJson.DeformRef a b c) : e.toJson.DeformRef a b c := by
  obtain ⟨x, hx, d', t', hd, ht, hk⟩ := h
  obtain ⟨x, h1, h2⟩ := anim_back hr hx
  obtain ⟨d, h3, h4⟩ := h2.deform _ _ hd
  obtain ⟨t, h5, h6⟩ := h4 _ _ ht
  exact ⟨x, h1, d, t, h3, h5, (h6.map _).subset hk⟩

end Editor
end Spine
