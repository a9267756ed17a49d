import Verif.Spec.Refs
import Verif.Props.Frame
/- References: what the calls do to them, whatever their outcome. -/
set_option linter.unusedSectionVars false
set_option linter.unusedSimpArgs false
namespace Spine
open JVal Graph Container
variable {F : Type} [PyRt F]

/-! ### Skins and drawOrder -/

/-- `s'` has the name of `s` and some of its attachments -/
def Skin.Fewer (s s' : Skin F) : Prop := s'.name = s.name ∧
  ∀ slot m', (slot, m') ∈ s'.attachments → ∃ m, (slot, m) ∈ s.attachments ∧ ∀ k ∈ Dict.keys m', k ∈ Dict.keys m

/-- the drawOrder keyframes of `x'` move no slots but those `x` moves -/
def Anim.FewerDraws (x x' : Anim F) : Prop := ∀ t' ∈ x'.drawOrder, ∃ t ∈ x.drawOrder, ∀ k ∈ Dict.keys t'.offsets, k ∈ Dict.keys t.offsets

theorem Skin.Fewer.refl (s : Skin F) : Skin.Fewer s s := ⟨rfl, fun _ m h => ⟨m, h, fun _ h => h⟩⟩

theorem Skin.Fewer.trans {s s' s'' : Skin F} (h : Skin.Fewer s s') (h' : Skin.Fewer s' s'') : Skin.Fewer s s'' := by
  refine ⟨h'.1.trans h.1, fun slot m'' hm => ?_⟩
  obtain ⟨m', h1, h2⟩ := h'.2 _ _ hm
  obtain ⟨m, h3, h4⟩ := h.2 _ _ h1
  exact ⟨m, h3, fun k hk => h4 _ (h2 _ hk)⟩

theorem Anim.FewerDraws.refl (x : Anim F) : Anim.FewerDraws x x := fun t h => ⟨t, h, fun _ h => h⟩

theorem Anim.FewerDraws.trans {x x' x'' : Anim F} (h : Anim.FewerDraws x x') (h' : Anim.FewerDraws x' x'') : Anim.FewerDraws x x'' := by
  intro t'' ht
  obtain ⟨t', h1, h2⟩ := h' _ ht
  obtain ⟨t, h3, h4⟩ := h _ h1
  exact ⟨t, h3, fun k hk => h4 _ (h2 _ hk)⟩

theorem keys_filter {α : Type} (p : Str × α → Bool) (d : Dict α) {k : Str} (h : k ∈ Dict.keys (d.filter p)) : k ∈ Dict.keys d := by
  obtain ⟨q, hq, rfl⟩ := List.mem_map.1 h
  exact List.mem_map_of_mem (List.mem_filter.1 hq).1

theorem adjustLoop_keys (removed a b : List Str) : ∀ {d d' : Dict Int}, DrawOrder.adjustLoop removed a b d = .ok d' → Dict.keys d' = Dict.keys d := by
  intro d
  induction d with
  | nil => intro d' h; simp only [DrawOrder.adjustLoop, Except.ok.injEq] at h; rw [← h]
  | cons p d ih =>
    intro d' h
    obtain ⟨n, o⟩ := p
    unfold DrawOrder.adjustLoop at h
    split at h
    · obtain ⟨t, h1, h⟩ := bindOk h
      injection h with h
      rw [← h]
      show n :: Dict.keys t = _
      rw [ih h1]; rfl
    · split at h
      · cases h
      · split at h
        · cases h
        · obtain ⟨t, h1, h⟩ := bindOk h
          injection h with h
          rw [← h]
          show n :: Dict.keys t = _
          rw [ih h1]; rfl

theorem removeOffsets_keys {ids : List Str} {orig : List (Slot F)} {o o' : List (Str × Int)}
    (h : DrawOrder.removeOffsets Slot.name ids orig o = .ok o') {k : Str} (hk : k ∈ Dict.keys o') : k ∈ Dict.keys o := by
  unfold DrawOrder.removeOffsets DrawOrder.adjust at h
  simp only at h
  obtain ⟨adj, h1, h⟩ := bindOk h
  injection h with h
  rw [← h] at hk
  have := keys_filter _ _ hk
  rw [adjustLoop_keys _ _ _ h1] at this
  exact (mem_keys_offsetDict _ _).1 this

theorem Anim.fewer_removeDrawOrder (ids : List Str) (orig : List (Slot F)) (x : Anim F) : FewerDraws x (removeDrawOrder ids orig x).2 := by
  intro t' ht'
  have h : All₂ (fun t t' : DrawTl F => ∀ k ∈ Dict.keys t'.offsets, k ∈ Dict.keys t.offsets) x.drawOrder (mapMut (cleanDraw ids orig) x.drawOrder).2 := by
    refine mapMut_all _ _ ?_ (fun _ _ h => h)
    intro t _
    unfold cleanDraw
    split
    · exact fun _ h => h
    · rename_i o ho
      exact fun k hk => removeOffsets_keys ho hk
  exact h.right ht'

namespace AnimData
variable {a a' a'' : AnimData F}

/-- every deform timeline is for a skin that exists -/
def SkinsOk (a : AnimData F) : Prop := ∀ p ∈ a.animations, ∀ k ∈ Dict.keys p.2.deform, ∃ s ∈ a.skins, s.name = k

structure Fewer (a a' : AnimData F) : Prop where
  skinRefs : SkinsOk a → SkinsOk a'
  skins : ∀ s' ∈ a'.skins, ∃ s ∈ a.skins, Skin.Fewer s s'
  draws : ∀ p' ∈ a'.animations, ∃ p ∈ a.animations, p'.1 = p.1 ∧ Anim.FewerDraws p.2 p'.2

theorem Fewer.refl (a : AnimData F) : Fewer a a := ⟨id, fun s h => ⟨s, h, .refl s⟩, fun p h => ⟨p, h, rfl, .refl _⟩⟩

theorem Fewer.trans (h : Fewer a a') (h' : Fewer a' a'') : Fewer a a'' := by
  refine ⟨fun hs => h'.skinRefs (h.skinRefs hs), ?_, ?_⟩
  · intro s'' hs
    obtain ⟨s', h1, h2⟩ := h'.skins _ hs
    obtain ⟨s, h3, h4⟩ := h.skins _ h1
    exact ⟨s, h3, h4.trans h2⟩
  · intro p'' hs
    obtain ⟨p', h1, e1, h2⟩ := h'.draws _ hs
    obtain ⟨p, h3, e2, h4⟩ := h.draws _ h1
    exact ⟨p, h3, e1.trans e2, h4.trans h2⟩

theorem fewer_same (a : AnimData F) (b : List (Bone F)) (s : List (Slot F)) (i : List (Attrs F)) : Fewer a { a with bones := b, slots := s, ik := i } :=
  ⟨id, (Fewer.refl a).skins, (Fewer.refl a).draws⟩

theorem fewer_dmap {f : Anim F → Anim F} (hf : ∀ x, (f x).drawOrder = x.drawOrder) (hk : ∀ x, Dict.keys (f x).deform = Dict.keys x.deform)
    (a : AnimData F) : Fewer a { a with animations := dmap f a.animations } := by
  refine ⟨?_, (Fewer.refl a).skins, ?_⟩
  · rintro hs ⟨n, x'⟩ hp k h
    obtain ⟨x, hx, rfl⟩ := (mem_dmap _ _ _ _).1 hp
    simp only [hk] at h
    exact hs _ hx k h
  rintro ⟨n, x'⟩ hp
  obtain ⟨x, hx, rfl⟩ := (mem_dmap _ _ _ _).1 hp
  refine ⟨_, hx, rfl, ?_⟩
  intro t ht
  rw [hf] at ht
  exact ⟨t, ht, fun _ h => h⟩

theorem fewer_setDefaults (v : Bool) (a : AnimData F) : Fewer a (a.setDefaults v) := by
  refine ⟨?_, ?_, ?_⟩
  · rintro hs ⟨n, x'⟩ hp k h
    obtain ⟨x, hx, rfl⟩ := (mem_dmap _ _ _ _).1 hp
    have h : k ∈ Dict.keys (dmap (dmap (dmap (·.map (deformCls.setDefaults v)))) x.deform) := h
    rw [keys_dmap] at h
    obtain ⟨s, h1, h2⟩ := hs _ hx k h
    exact ⟨_, List.mem_map_of_mem h1, h2⟩
  · intro s' hs
    obtain ⟨s, h, rfl⟩ := List.mem_map.1 hs
    refine ⟨s, h, rfl, ?_⟩
    intro slot m' hm
    have hm : (slot, m') ∈ dmap (fun d : Dict (Att F) => dmap (fun x : Att F => x.setDefaults v) d) s.attachments := hm
    obtain ⟨m, hm', rfl⟩ := (mem_dmap _ _ _ _).1 hm
    exact ⟨m, hm', fun k hk => by rwa [keys_dmap] at hk⟩
  · rintro ⟨n, x'⟩ hp
    obtain ⟨x, hx, rfl⟩ := (mem_dmap _ _ _ _).1 hp
    refine ⟨_, hx, rfl, ?_⟩
    intro t' ht
    obtain ⟨t, ht', rfl⟩ := List.mem_map.1 ht
    exact ⟨t, ht', fun _ h => h⟩

theorem fewer_removeSlots (ids : List Str) (orig : List (Slot F)) (a : AnimData F) : Fewer a (Editor.removeSlots ids orig a).2 := by
  unfold Editor.removeSlots Editor.drawOrderRefs
  refine Fewer.trans (a' := Editor.slotsInSkins ids a) ⟨?_, ?_, (Fewer.refl a).draws⟩ (Fewer.trans (a' := Editor.slotsInAnims ids (Editor.slotsInSkins ids a))
    (fewer_dmap (f := fun x => (x.removeSlots ids).removeDeformSlots ids) (fun _ => rfl) (fun _ => keys_dmap _ _) _) ⟨?_, (Fewer.refl _).skins, ?_⟩)
  · intro hs p hp k hk
    obtain ⟨s, h1, h2⟩ := hs p hp k hk
    exact ⟨_, List.mem_map_of_mem h1, h2⟩
  · intro s' hs
    obtain ⟨s, h, rfl⟩ := List.mem_map.1 hs
    exact ⟨s, h, rfl, fun slot m hm => ⟨m, (List.mem_filter.1 hm).1, fun _ h => h⟩⟩
  · intro hs p' hp k hk
    obtain ⟨p, h1, h2, h3⟩ := (mapMutD_all (R := fun _ (x x' : Anim F) => x'.deform = x.deform) (fun _ x => Anim.removeDrawOrder ids orig x) _
      (fun p _ => rfl) (fun _ _ => rfl)).right hp
    rw [h3] at hk
    exact hs p h1 k hk
  · intro p' hp
    exact (mapMutD_all (R := fun _ => Anim.FewerDraws) _ _ (fun p _ => Anim.fewer_removeDrawOrder ids orig p.2) (fun _ => .refl)).right hp

theorem fewer_removeAttachments (ids : List Str) (a : AnimData F) : Fewer a (Editor.removeAttachments ids a) := by
  unfold Editor.removeAttachments
  refine Fewer.trans (a' := Editor.attsInSkins ids a) ⟨?_, ?_, ?_⟩ (fewer_same _ _ _ _)
  · have key : ∀ (l : List (Skin F)) (d : Dict (Anim F)), ∀ p' ∈ l.foldl (fun an s => dmap (Anim.removeDeformAtts ids s.name) an) d,
        ∃ p ∈ d, ∀ k ∈ Dict.keys p'.2.deform, k ∈ Dict.keys p.2.deform := by
      intro l
      induction l with
      | nil => exact fun d p h => ⟨p, h, fun _ h => h⟩
      | cons s l ih =>
        intro d p'' h
        obtain ⟨⟨n, x'⟩, h1, h2⟩ := ih _ p'' h
        obtain ⟨x, hx, rfl⟩ := (mem_dmap _ _ _ _).1 h1
        refine ⟨_, hx, fun k hk => ?_⟩
        have := h2 k hk
        simp only [Anim.removeDeformAtts] at this
        split at this
        · exact this
        · rename_i d' hd'
          rw [Editor.keys_set_of_mem (List.mem_map_of_mem (f := fun q : Str × Dict (Dict (List (Attrs F))) => q.1) (Dict.mem_of_get? hd'))] at this
          exact this
    intro hs p' hp k hk
    obtain ⟨p, h1, h2⟩ := key _ _ p' hp
    obtain ⟨s, h3, h4⟩ := hs p h1 k (h2 k hk)
    exact ⟨_, List.mem_map_of_mem h3, h4⟩
  · intro s' hs
    obtain ⟨s, h, rfl⟩ := List.mem_map.1 hs
    refine ⟨s, h, rfl, ?_⟩
    intro slot m' hm
    obtain ⟨m, hm', rfl⟩ := (mem_dmap _ _ _ _).1 hm
    exact ⟨m, hm', fun k hk => keys_filter _ _ hk⟩
  · have key : ∀ (l : List (Skin F)) (d : Dict (Anim F)), ∀ p' ∈ l.foldl (fun an s => dmap (Anim.removeDeformAtts ids s.name) an) d,
        ∃ p ∈ d, p'.1 = p.1 ∧ Anim.FewerDraws p.2 p'.2 := by
      intro l
      induction l with
      | nil => exact fun d p h => ⟨p, h, rfl, .refl _⟩
      | cons s l ih =>
        intro d p'' h
        obtain ⟨⟨n, x'⟩, h1, e1, h2⟩ := ih _ p'' h
        obtain ⟨x, hx, rfl⟩ := (mem_dmap _ _ _ _).1 h1
        refine ⟨_, hx, e1, ?_⟩
        have : (Anim.removeDeformAtts ids s.name x).drawOrder = x.drawOrder := by unfold Anim.removeDeformAtts; split <;> rfl
        intro t ht
        obtain ⟨t', h3, h4⟩ := h2 t ht
        simp only [this] at h3
        exact ⟨t', h3, h4⟩
    exact key _ _

theorem fewer_relinkSkin (gone : Skin F) (n : Str) (s : Skin F) : Skin.Fewer s (relinkSkin gone n s).2 := by
  unfold relinkSkin
  split
  · exact .refl s
  · refine ⟨rfl, fun slot m' hm => ?_⟩
    have h := mapMutD_all (R := fun _ (m m' : Dict (Att F)) => Dict.keys m' = Dict.keys m)
      (fun slot e => mapMutD (fun key x => relinkAtt gone n slot key x) e) s.attachments ?_ (fun _ _ => rfl)
    · obtain ⟨⟨k, m⟩, h1, h2, h3⟩ := h.right hm
      simp only at h2 h3
      subst h2
      exact ⟨m, h1, fun k hk => h3 ▸ hk⟩
    · intro p _
      have := mapMutD_all (R := fun _ (_ _ : Att F) => True) (fun key x => relinkAtt gone n p.1 key x) p.2 (fun _ _ => trivial) (fun _ _ => trivial)
      exact (this.map_eq (f := fun q => q.1) (g := fun q => q.1) (fun _ _ h => h.1.symm)).symm

/-- relinking keeps the keys -/
theorem relinkSkin_has (gone : Skin F) (n : Str) (s : Skin F) {slot : Str} {m : Dict (Att F)} (h : (slot, m) ∈ s.attachments) :
    ∃ m', (slot, m') ∈ (relinkSkin gone n s).2.attachments ∧ Dict.keys m' = Dict.keys m := by
  unfold relinkSkin
  split
  · exact ⟨m, h, rfl⟩
  · have hh := mapMutD_all (R := fun _ (m m' : Dict (Att F)) => Dict.keys m' = Dict.keys m)
      (fun slot e => mapMutD (fun key x => relinkAtt gone n slot key x) e) s.attachments ?_ (fun _ _ => rfl)
    · obtain ⟨⟨k, m'⟩, h1, h2, h3⟩ := hh.left h
      simp only at h2 h3
      subst h2
      exact ⟨m', h1, h3⟩
    · intro p _
      have := mapMutD_all (R := fun _ (_ _ : Att F) => True) (fun key x => relinkAtt gone n p.1 key x) p.2 (fun _ _ => trivial) (fun _ _ => trivial)
      exact (this.map_eq (f := fun q => q.1) (g := fun q => q.1) (fun _ _ h => h.1.symm)).symm

theorem fewer_removeSkin (n : Str) (a : AnimData F) : Fewer a (removeSkin n a).2 := by
  have key : ∀ gone : Skin F, ∀ s' ∈ (mapMut (relinkSkin gone n) a.skins).2, ∃ s ∈ a.skins, Skin.Fewer s s' := by
    intro gone s' hs
    exact (mapMut_all (R := Skin.Fewer) _ a.skins (fun s _ => fewer_relinkSkin gone n s) (fun s => .refl s)).right hs
  have names : ∀ gone : Skin F, ∀ s ∈ a.skins, ∃ s' ∈ (mapMut (relinkSkin gone n) a.skins).2, s'.name = s.name := by
    intro gone s hs
    exact (mapMut_all (R := fun s s' => s'.name = s.name) _ a.skins (fun s _ => relinkSkin_name gone n s) (fun s => rfl)).left hs
  have old : ∀ gone : Skin F, SkinsOk a → SkinsOk { a with skins := (mapMut (relinkSkin gone n) a.skins).2 } := by
    intro gone hs p hp k hk
    obtain ⟨s, h1, h2⟩ := hs p hp k hk
    obtain ⟨s', h3, h4⟩ := names gone s h1
    exact ⟨s', h3, h4.trans h2⟩
  unfold removeSkin
  split
  · exact .refl a
  · rename_i gone _
    simp only
    split
    · exact ⟨old gone, key gone, (Fewer.refl a).draws⟩
    · split
      · exact ⟨old gone, key gone, (Fewer.refl a).draws⟩
      · refine ⟨?_, fun s hs => key gone s (List.mem_filter.1 hs).1, ?_⟩
        · rintro hs ⟨m, x'⟩ hp k hk
          obtain ⟨x, hx, rfl⟩ := (mem_dmap _ _ _ _).1 hp
          have hk : k ∈ Dict.keys (Dict.del x.deform n) := hk
          obtain ⟨⟨k', d⟩, h1, rfl⟩ := List.mem_map.1 hk
          obtain ⟨h1, h2⟩ := List.mem_filter.1 h1
          obtain ⟨s, h3, h4⟩ := old gone hs _ hx k' (List.mem_map_of_mem (f := fun q : Str × Dict (Dict (List (Attrs F))) => q.1) h1)
          refine ⟨s, List.mem_filter.2 ⟨h3, ?_⟩, h4⟩
          rw [h4]
          simpa using h2
        rintro ⟨m, x'⟩ hp
        obtain ⟨x, hx, rfl⟩ := (mem_dmap _ _ _ _).1 hp
        exact ⟨_, hx, rfl, fun t ht => ⟨t, ht, fun _ h => h⟩⟩

end AnimData

namespace Editor
open AnimData
variable {e e' : Editor F}

theorem fewer_removeSkins (names : List Str) (a : AnimData F) : Fewer a (removeSkins names a).2 := by
  induction names generalizing a with
  | nil => exact .refl a
  | cons n ns ih =>
    unfold removeSkins
    have h1 := fewer_removeSkin n a
    generalize removeSkin n a = q at h1
    obtain ⟨r, a1⟩ := q
    cases r with
    | error x => exact h1
    | ok v =>
      simp only
      have h2 := ih a1
      generalize removeSkins ns a1 = q at h2
      obtain ⟨r, a2⟩ := q
      cases r with
      | error x => exact h1.trans h2
      | ok v => exact h1.trans h2

/-! ### Bones, slots and iks -/

/-- the name and the parent of a written bone -/
def tagB (v : JVal F) : Option (JVal F) × Option (JVal F) := (v.field s!!"name", v.field s!!"parent")
/-- the name and the bone of a written slot -/
def tagS (v : JVal F) : Option (JVal F) × Option (JVal F) := (v.field s!!"name", v.field s!!"bone")

theorem field_cls (c : Cls F) (v : Bool) {a : Attrs F} (hn : (Dict.keys a).Nodup) (k : Str) :
    (c.toJson v a).field k = (Dict.get? a k).filter (c.emits v k) := Cls.get?_filter a (c.emits v) hn k

theorem tagB_toJson (v : Bool) (b : Bone F) (hb : b.Good) : tagB (b.toJson v) = (some (.str b.name), b.parent.map .str) := by
  have ok := Cls.leafClasses_ok (boneCls (F := F)) (by simp [leafClasses])
  have hn : (Dict.keys b.attrs).Nodup := by rw [hb]; exact ok.nodup
  have h1 : Dict.get? ((boneCls (F := F)).defaultsFor v) s!!"name" = none := by cases v <;> rfl
  have h2 : Dict.get? ((boneCls (F := F)).defaultsFor v) s!!"parent" = none := by cases v <;> rfl
  unfold tagB Bone.toJson
  rw [field_cls _ _ hn, field_cls _ _ hn]
  cases hp : b.parent <;> simp [Bone.attrs, Dict.get?, Cls.emits, h1, h2, isNull, optJ, hp, Option.filter]

theorem tagS_toJson (v : Bool) (s : Slot F) : tagS (s.toJson v) = (some (.str s.name), s.bone.map .str) := by
  have ok := Cls.leafClasses_ok (slotCls (F := F)) (by simp [leafClasses])
  have hn : (Dict.keys s.attrs).Nodup := ok.nodup
  have h1 : ∀ k, Dict.get? ((slotCls (F := F)).defaultsFor v) k = none := by intro k; cases v <;> rfl
  unfold tagS Slot.toJson
  rw [field_cls _ _ hn, field_cls _ _ hn]
  cases hp : s.bone <;> simp [Slot.attrs, Dict.get?, Cls.emits, h1, isNull, optJ, hp, Option.filter]

/-- a slot without a bone cannot be read again -/
theorem slot_init_none (v : Bool) {x y : Slot F} (hx : x.bone = none) : Slot.init (x.toJson v) ≠ .ok y := by
  intro h
  unfold Slot.init at h
  obtain ⟨a, h1, _⟩ := bindOk h
  unfold Cls.init at h1
  obtain ⟨d, h2, h1⟩ := bindOk h1
  obtain ⟨_, h3, _⟩ := bindOk h1
  have hd : s!!"bone" ∉ Dict.keys d := by
    have h0 : s!!"bone" ∉ Dict.keys (x.attrs.filter (fun p => slotCls.emits v p.1 p.2)) := by
      intro hm
      obtain ⟨⟨k, w⟩, hq, hk⟩ := List.mem_map.1 hm
      obtain ⟨hq, he⟩ := List.mem_filter.1 hq
      simp only at hk he
      subst hk
      have : Dict.get? x.attrs s!!"bone" = some w :=
        Dict.get?_of_mem (d := x.attrs) (show (Dict.keys x.attrs).Nodup from
          (Cls.leafClasses_ok (slotCls (F := F)) (by simp [leafClasses])).nodup) hq
      simp [Slot.attrs, Dict.get?, hx, optJ] at this
      subst this
      have hn : Dict.get? ((slotCls (F := F)).defaultsFor v) s!!"bone" = none := by cases v <;> rfl
      simp [Cls.emits, hn, isNull] at he
    unfold Cls.values Slot.toJson Cls.toJson at h2
    generalize x.attrs.filter (fun p => slotCls.emits v p.1 p.2) = d0 at h0 h2
    rw [if_pos (show (slotCls (F := F)).orStyle = true from rfl)] at h2
    split at h2
    · injection h2 with h2; rw [← h2]; exact h0
    · injection h2 with h2; rw [← h2]; simp [Dict.keys]
  unfold Cls.check at h3
  simp only at h3
  split at h3
  · cases h3
  · split at h3
    · cases h3
    · rename_i hm
      apply hm
      intro hm
      have : s!!"bone" ∈ (slotCls (F := F)).required.filter (fun k => k ∉ Dict.keys d) := by
        rw [List.mem_filter]
        exact ⟨by simp [slotCls], by simpa using hd⟩
      rw [hm] at this
      cases this

/-- name and parent, as they are written -/
def jB (b : Bone F) : Option (JVal F) × Option (JVal F) := (some (.str b.name), b.parent.map .str)
/-- name and bone, as they are written -/
def jS (s : Slot F) : Option (JVal F) × Option (JVal F) := (some (.str s.name), s.bone.map .str)

theorem readBack_tags {b : Bool} {g : SGraph F} (hc : Core b g) {bs : List (Bone F)}
    (h : mapE Bone.init ((nodesOf g .bone).map (·.2.2)) = .ok bs) : bs.map jB = (nodesOf g .bone).map (fun p => tagB p.2.2) := by
  rw [mapE_all₂, All₂.map_left] at h
  have h := h.mono (S := fun p y => jB y = tagB p.2.2) ?_
  · exact (h.map_eq (f := fun p => tagB p.2.2) (g := jB) (fun x y h => h.symm)).symm
  · intro p y hp hy
    obtain ⟨x, hx, e⟩ := hc.bones p hp
    obtain ⟨y', h1, h2⟩ := Bone.rt b x hx
    rw [e] at hy ⊢
    rw [h1] at hy
    injection hy with hy
    subst hy
    simp only at h2
    rw [← h2, tagB_toJson _ _ (Bone.good_setDefaults _ (Bone.good_init h1))]
    rfl

theorem readBack_slotTags {b : Bool} {g : SGraph F} (hc : Core b g) {ss : List (Slot F)}
    (h : mapE Slot.init ((nodesOf g .slot).map (·.2.2)) = .ok ss) : ss.map jS = (nodesOf g .slot).map (fun p => tagS p.2.2) := by
  rw [mapE_all₂, All₂.map_left] at h
  have h := h.mono (S := fun p y => jS y = tagS p.2.2) ?_
  · exact (h.map_eq (f := fun p => tagS p.2.2) (g := jS) (fun x y h => h.symm)).symm
  · intro p y hp hy
    obtain ⟨x, _, e⟩ := hc.slots p hp
    rw [e] at hy ⊢
    cases hx : x.bone with
    | none => exact absurd hy (slot_init_none b hx)
    | some n =>
      rw [Slot.init_toJson b x (by unfold Slot.Good; rw [hx]; simp)] at hy
      injection hy with hy
      subst hy
      rw [tagS_toJson]; rfl

/-- the graph has the bones and iks of the data, and no other slots -/
structure Tied (e : Editor F) : Prop where
  bones : (nodesOf e.graph .bone).map (fun p => tagB p.2.2) = e.data.bones.map jB
  slots : ((nodesOf e.graph .slot).map (fun p => tagS p.2.2)).Sublist (e.data.slots.map jS)
  iks : (nodesOf e.graph .ik).map (·.2.2) = iksJson e

/-- what happens to the bones, slots, iks, skins and drawOrder keyframes -/
structure Held (e e' : Editor F) : Prop where
  version : e'.doc.version = e.doc.version
  bones : e'.data.bones.map jB = e.data.bones.map jB
  slots : (e'.data.slots.map jS).Sublist (e.data.slots.map jS)
  iks : iksJson e' = iksJson e
  fewer : AnimData.Fewer e.data e'.data

theorem Held.refl (e : Editor F) : Held e e := ⟨rfl, rfl, .refl _, rfl, .refl _⟩

theorem Held.trans {e'' : Editor F} (h : Held e e') (h' : Held e' e'') : Held e e'' :=
  ⟨h'.version.trans h.version, h'.bones.trans h.bones, h'.slots.trans h.slots, h'.iks.trans h.iks, h.fewer.trans h'.fewer⟩

theorem Held.data {a : AnimData F} (h1 : a.bones = e.data.bones) (h2 : a.slots = e.data.slots) (h3 : a.ik = e.data.ik) (h4 : Fewer e.data a) :
    Held e (e.withData a) :=
  ⟨rfl, by show a.bones.map jB = _; rw [h1], by show (a.slots.map jS).Sublist _; rw [h2]; exact .refl _,
    by show a.ik.map _ = _; rw [h3]; rfl, h4⟩

theorem tied_fresh (hb : ∀ b ∈ e.data.bones, Bone.Good b) (hg : SpineNodes.create e.toJson = .ok e.graph) : Tied e := by
  obtain ⟨h1, h2, h3⟩ := nodesOf_fresh (s := e.doc) hg
  refine ⟨?_, ?_, h3⟩
  · have : (nodesOf e.graph .bone).map (fun p => tagB p.2.2) = ((nodesOf e.graph .bone).map (·.2.2)).map tagB := by rw [List.map_map]; rfl
    rw [this, h1, List.map_map]
    exact List.map_congr_left (fun b h => tagB_toJson _ b (hb b h))
  · rw [h2.map_eq (f := fun p => tagS p.2.2) (g := jS) (fun p x h => by rw [h.2, tagS_toJson]; rfl)]
    exact .refl _

/-- the data is replaced by one with the same bones and iks and at least the slots of the graph -/
theorem Tied.of {g : SGraph F} (h : Tied e) (hg : e'.graph = g) (hb : e'.data.bones.map jB = e.data.bones.map jB)
    (hi : iksJson e' = iksJson e) (g1 : nodesOf g .bone = nodesOf e.graph .bone) (g2 : nodesOf g .ik = nodesOf e.graph .ik)
    (hs : ((nodesOf g .slot).map (fun p => tagS p.2.2)).Sublist (e'.data.slots.map jS)) : Tied e' := by
  refine ⟨?_, ?_, ?_⟩
  · rw [hg, g1, hb]; exact h.bones
  · rw [hg]; exact hs
  · rw [hg, g2, hi]; exact h.iks

theorem nodesOf_restrict_sub (g : SGraph F) (S : List Str) (t : NType) : (nodesOf (restrict g S) t).Sublist (nodesOf g t) := by
  rw [nodesOf_restrict]; exact List.filter_sublist

theorem held_readBack {g : SGraph F} (hc : Core e.doc.version.is38 g) (ht : Tied e) (g1 : nodesOf g .bone = nodesOf e.graph .bone)
    (g2 : nodesOf g .ik = nodesOf e.graph .ik) (g3 : (nodesOf g .slot).Sublist (nodesOf e.graph .slot)) :
    Held e (readBack { e with graph := g }).2 ∧ Tied (readBack { e with graph := g }).2 ∧ (readBack { e with graph := g }).2.graph = g := by
  have g3' : ((nodesOf g .slot).map (fun p => tagS p.2.2)).Sublist (e.data.slots.map jS) := (g3.map _).trans ht.slots
  have base : Held e { e with graph := g } ∧ Tied { e with graph := g } :=
    ⟨⟨rfl, rfl, .refl _, rfl, .refl _⟩, ht.of rfl rfl rfl g1 g2 g3'⟩
  unfold readBack
  rw [show SpineNodes.toJsonData ({ e with graph := g } : Editor F).graph = _ from hc.toJsonData]
  simp only
  split
  · exact ⟨base.1, base.2, rfl⟩
  · rename_i bs hbs
    have hb : bs.map jB = e.data.bones.map jB := by rw [readBack_tags hc hbs, g1, ht.bones]
    split
    · exact ⟨⟨rfl, hb, .refl _, rfl, AnimData.fewer_same _ _ _ _⟩, ht.of rfl hb rfl g1 g2 g3', rfl⟩
    · rename_i ss hss
      have hs := readBack_slotTags hc hss
      have hs1 : (ss.map jS).Sublist (e.data.slots.map jS) := by rw [hs]; exact g3'
      have hs2 : ((nodesOf g .slot).map (fun p => tagS p.2.2)).Sublist (ss.map jS) := by rw [hs]; exact .refl _
      split
      · exact ⟨⟨rfl, hb, hs1, rfl, AnimData.fewer_same _ _ _ _⟩, ht.of rfl hb rfl g1 g2 hs2, rfl⟩
      · rename_i is his
        have hi := readBack_iks hc his
        rw [g2, ht.iks] at hi
        have hb' : (bs.map (·.setDefaults e.doc.version.is38)).map jB = e.data.bones.map jB := by
          rw [List.map_map, ← hb]; rfl
        exact ⟨⟨rfl, hb', hs1, hi, (AnimData.fewer_same _ _ _ _).trans (AnimData.fewer_setDefaults _ _)⟩, ht.of rfl hb' hi g1 g2 hs2, rfl⟩

theorem jS_attsInSlots (ids : List Str) (a : AnimData F) : (attsInSlots ids a).slots.map jS = a.slots.map jS := by
  show (a.slots.map _).map jS = _
  rw [List.map_map]
  refine List.map_congr_left (fun s _ => ?_)
  simp only [Function.comp]
  split
  · split <;> rfl
  · rfl

theorem held_clean (hc : ECore e) (ht : Tied e) : Held e (clean e).2 ∧ Tied (clean e).2 := by
  unfold clean
  simp only
  split
  · exact ⟨.refl e, ht⟩
  rename_i slots atts hu
  obtain ⟨r, S, hS, hl⟩ := cleanGraph_loose hc.core slots atts
  rw [hS]
  have g1 := hl.nodesOf hc.core (t := .bone) (.inl rfl)
  have g2 := hl.nodesOf hc.core (t := .ik) (.inr rfl)
  have g3 := nodesOf_restrict_sub e.graph S .slot
  cases r with
  | error x => exact ⟨⟨rfl, rfl, .refl _, rfl, .refl _⟩, ht.of rfl rfl rfl g1 g2 ((g3.map _).trans ht.slots)⟩
  | ok ids =>
    simp only
    obtain ⟨q1, q2, q3⟩ := held_readBack (hc.core.restrict S) ht g1 g2 g3
    have hc1 := readBack_core (e := { e with graph := restrict e.graph S }) hc.bones hc.iks
    generalize readBack { e with graph := restrict e.graph S } = rb at q1 q2 q3 hc1
    obtain ⟨r1, e1⟩ := rb
    simp only at q1 q2 q3 hc1
    cases r1 with
    | error x => exact ⟨q1, q2⟩
    | ok _ =>
      simp only
      have b0 : (removeSlots ids e.data.slots e1.data).2.bones = e1.data.bones ∧ (removeSlots ids e.data.slots e1.data).2.ik = e1.data.ik ∧
        (removeSlots ids e.data.slots e1.data).2.slots = e1.data.slots := ⟨rfl, rfl, rfl⟩
      have b1 := AnimData.fewer_removeSlots ids e.data.slots e1.data
      generalize removeSlots ids e.data.slots e1.data = rs at b0 b1
      obtain ⟨r2, a⟩ := rs
      simp only at b0 b1
      have ha : Held e1 (e1.withData a) := .data b0.1 b0.2.2 b0.2.1 b1
      have hta : Tied (e1.withData a) := q2.of rfl ha.bones ha.iks rfl rfl (by
        show List.Sublist _ (a.slots.map jS)
        rw [b0.2.2]; exact q2.slots)
      cases r2 with
      | error x => exact ⟨q1.trans ha, hta⟩
      | ok _ =>
        have c1 : Core e1.doc.version.is38 e1.graph := by
          have : e1.doc.version = e.doc.version := q1.version
          rw [q3, this]; exact hc.core.restrict S
        have hb : Held e1 (e1.withData (removeAttachments atts a)) := by
          refine ⟨rfl, ha.bones, ?_, ha.iks, b1.trans (AnimData.fewer_removeAttachments atts a)⟩
          show ((attsInSlots atts (attsInSkins atts a)).slots.map jS).Sublist _
          rw [jS_attsInSlots]
          exact ha.slots
        obtain ⟨r3, S3, h3, l3⟩ := detach_loose c1
        have h3' : detach (e1.withData (removeAttachments atts a)).graph = (r3, restrict e1.graph S3) := h3
        simp only [h3']
        have hslots : ((nodesOf (restrict e1.graph S3) .slot).map (fun p => tagS p.2.2)).Sublist ((attsInSlots atts (attsInSkins atts a)).slots.map jS) := by
          rw [jS_attsInSlots]
          exact ((nodesOf_restrict_sub _ _ _).map _).trans hta.slots
        have f1 := l3.nodesOf c1 (t := .bone) (.inl rfl)
        have f2 := l3.nodesOf c1 (t := .ik) (.inr rfl)
        have hall : Held e { e1.withData (removeAttachments atts a) with graph := restrict e1.graph S3 } :=
          q1.trans ⟨hb.version, hb.bones, hb.slots, hb.iks, hb.fewer⟩
        have htall : Tied { e1.withData (removeAttachments atts a) with graph := restrict e1.graph S3 } :=
          q2.of rfl hb.bones hb.iks f1 f2 hslots
        cases r3 with
        | error x => exact ⟨hall, htall⟩
        | ok imgs => exact ⟨⟨hall.version, hall.bones, hall.slots, hall.iks, hall.fewer⟩, ⟨htall.bones, htall.slots, htall.iks⟩⟩

theorem held_cleanUnless (safe : Bool) (hc : ECore e) (ht : Tied e) : Held e (cleanUnless safe e).2 ∧ Tied (cleanUnless safe e).2 := by
  unfold cleanUnless
  split
  · exact ⟨.refl e, ht⟩
  · exact held_clean hc ht

theorem held_eraseAnims (arg : NamesArg) (strict safe : Bool) (hc : ECore e) (ht : Tied e) :
    Held e (eraseAnims arg strict safe e).2 ∧ Tied (eraseAnims arg strict safe e).2 := by
  unfold eraseAnims
  split
  · exact ⟨.refl e, ht⟩
  · rename_i names
    simp only
    rw [eraseRaw_fst]
    have hc' : ECore (e.withData { e.data with animations := e.data.animations.filter (fun p => decide (p.1 ∉ names)) }) := ⟨hc.core, hc.bones, hc.iks⟩
    have h1 : Held e (e.withData { e.data with animations := e.data.animations.filter (fun p => decide (p.1 ∉ names)) }) :=
      .data rfl rfl rfl ⟨fun hs p hp => hs p (List.mem_filter.1 hp).1, (Fewer.refl _).skins, fun p hp => ⟨p, (List.mem_filter.1 hp).1, rfl, .refl _⟩⟩
    have ht' : Tied (e.withData { e.data with animations := e.data.animations.filter (fun p => decide (p.1 ∉ names)) }) := ⟨ht.bones, ht.slots, ht.iks⟩
    split
    · exact ⟨h1, ht'⟩
    · have h2 := held_cleanUnless safe hc' ht'
      split
      · rename_i h; rw [h] at h2; exact ⟨h1.trans h2.1, h2.2⟩
      · rename_i h; rw [h] at h2; exact ⟨h1.trans h2.1, h2.2⟩

theorem held_eraseSkins (names : List Str) (safe : Bool) (hc : ECore e) (ht : Tied e) :
    Held e (eraseSkins names safe e).2 ∧ Tied (eraseSkins names safe e).2 := by
  unfold eraseSkins
  have hb := removeSkins_bones names e.data
  have hf := fewer_removeSkins names e.data
  generalize removeSkins names e.data = q at hb hf
  obtain ⟨r, a⟩ := q
  simp only at hb hf
  have h0 : Held e (e.withData a) := .data hb.1 hb.2.2 hb.2.1 hf
  have t0 : Tied (e.withData a) := ht.of rfl h0.bones h0.iks rfl rfl (by
    show List.Sublist _ (a.slots.map jS)
    rw [hb.2.2]; exact ht.slots)
  cases r with
  | error x => exact ⟨h0, t0⟩
  | ok v =>
    simp only
    split
    · exact ⟨h0, t0⟩
    · rename_i g hg
      have hc1 := ecore_fresh hc hb.1 hb.2.1 hg
      have t1 : Tied { e.withData a with graph := g } := tied_fresh hc1.bones hg
      have h2 := held_cleanUnless safe hc1 t1
      have h01 : Held e { e.withData a with graph := g } := ⟨h0.version, h0.bones, h0.slots, h0.iks, h0.fewer⟩
      generalize cleanUnless safe { e.withData a with graph := g } = c at h2
      obtain ⟨r, e1⟩ := c
      simp only at h2
      obtain ⟨h2, t2⟩ := h2
      have h3 := h01.trans h2
      cases r with
      | error x => exact ⟨h3, t2⟩
      | ok r => exact ⟨⟨h3.version, h3.bones, h3.slots, h3.iks, h3.fewer⟩, ⟨t2.bones, t2.slots, t2.iks⟩⟩

theorem jB_scale (sx sy : Num F) (b : Bone F) : jB (b.scale sx sy).2 = jB b := by
  unfold Bone.scale
  split
  · rfl
  · rfl
  · split
    · rfl
    · simp only
      split <;> rfl

theorem held_scale (sx sy : Num F) (ht : Tied e) : Held e (scale sx sy e).2 ∧ Tied (scale sx sy e).2 := by
  have hb : (scale sx sy e).2.data.bones.map jB = e.data.bones.map jB := by
    have h1 : (mapMut (fun b => if noInherit b then b.scale sx sy else (.ok (), b)) e.data.bones).2.map jB = e.data.bones.map jB :=
      ((mapMut_all (R := fun b b' => jB b' = jB b) (fun b => if noInherit b then b.scale sx sy else (.ok (), b)) e.data.bones (by
        intro b _; split
        · exact jB_scale sx sy b
        · rfl) (fun _ => rfl)).map_eq (f := jB) (g := jB) (fun _ _ h => h.symm)).symm
    have h2 : ∀ l : List (Bone F), (onFirst s!!"root" (Bone.scale sx sy) l).2.map jB = l.map jB := by
      intro l
      induction l with
      | nil => rfl
      | cons b l ih =>
        unfold onFirst
        split
        · simp [jB_scale]
        · simpa using ih
    unfold scale
    split
    · rename_i x bs hbs; rw [hbs] at h1; exact h1
    · rename_i x bs hbs; rw [hbs] at h1; exact (h2 bs).trans h1
  rw [scale_frame]
  generalize (scale sx sy e).2.data.bones = bs at hb
  exact ⟨⟨rfl, hb, .refl _, rfl, AnimData.fewer_same _ _ _ _⟩, ht.of rfl hb rfl rfl rfl ht.slots⟩

theorem held_run (o : Op F) (hc : ECore e) (ht : Tied e) : Held e (o.run e).2 ∧ Tied (o.run e).2 := by
  cases o with
  | eraseSkins n s => exact held_eraseSkins n s hc ht
  | eraseAnims a t s => exact held_eraseAnims a t s hc ht
  | clean => exact held_clean hc ht
  | scale x y => exact held_scale x y ht

theorem Reached.tied (h : Reached e) : Tied e := by
  induction h with
  | load h => exact tied_fresh (load_data h).1 (load_ok h).2.2
  | run o h ih => exact (held_run o h.core ih).2

theorem held_after (h : Reached e) (ops : List (Op F)) : Held e (after ops e) := by
  induction ops generalizing e with
  | nil => exact .refl e
  | cons o ops ih => exact (held_run o h.core h.tied).1.trans (ih (h.run o))

end Editor
end Spine
