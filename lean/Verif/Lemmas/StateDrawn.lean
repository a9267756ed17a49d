import Verif.Spec.DrawnSaved
import Verif.Lemmas.StateLoad
import Verif.Props.Drawn
/-
What is drawn depends only on the saved document.
-/
set_option linter.unusedSectionVars false
namespace Spine
namespace State
open JVal
variable {F : Type} [PyRt F] {b : Bool}

/-- times that are reached together -/
def TimeR (v w : JVal F) : Prop := v = w ∨ (pyEq v (.int 0) = true ∧ pyEq w (.int 0) = true)

theorem TimeR.reached {v w : JVal F} (h : TimeR v w) (m : Moment F) : m.reached v ↔ m.reached w := by
  rcases h with rfl | ⟨h1, h2⟩
  · rfl
  · exact ⟨fun _ => m.zero _ h2, fun _ => m.zero _ h1⟩

/-- a time that is not written is zero -/
theorem zero_of {c : Cls F} {v : JVal F} (hd : Dict.get? (c.defaultsFor true) s!!"time" = some (.int 0)) (hv : v ≠ .null)
    (hn : c.emits true s!!"time" v = false) : pyEq v (.int 0) = true := by
  simp only [Cls.emits, hd] at hn
  have h1 : v.isNull = false := by
    cases hvn : v.isNull with
    | false => rfl
    | true => exact absurd ((Cls.isNull_iff v).1 hvn) hv
  simpa [h1] using hn

theorem kf_time {x y : SlotKf F} (h : x.toJson b = y.toJson b) (hx : SlotKf.Good x) (hy : SlotKf.Good y)
    (fx : x.setDefaults b = x) (fy : y.setDefaults b = y) : TimeR x.time y.time := by
  have ok := Cls.leafClasses_ok (slotKeyframeCls (F := F)) (by simp [leafClasses])
  have ha : AR slotKeyframeCls b x.attrs y.attrs := AR.of h (by rw [hx]; exact ok.nodup) (by rw [hx, hy])
  obtain ⟨n, r⟩ := x
  obtain ⟨n', r'⟩ := y
  have fx : slotKeyframeCls.setDefaults b r = r := by simpa [SlotKf.setDefaults] using fx
  have fy : slotKeyframeCls.setDefaults b r' = r' := by simpa [SlotKf.setDefaults] using fy
  unfold SlotKf.attrs at ha
  cases ha with
  | cons hh ht =>
    have ht : AR slotKeyframeCls b r r' := ht
    show TimeR (r.val s!!"time") (r'.val s!!"time")
    cases b with
    | false => exact .inl (ht.val (k := s!!"time") rfl)
    | true =>
      unfold Attrs.val
      rcases ht.two s!!"time" with ⟨e1, e2⟩ | ⟨v, w, e1, e2, e⟩
      · rw [e1, e2]; exact .inl rfl
      · rw [e1, e2]
        rcases e with rfl | ⟨n1, n2⟩
        · exact .inl rfl
        · have hd : Dict.get? ((slotKeyframeCls (F := F)).defaultsFor true) s!!"time" = some (.int 0) := rfl
          have nn : ∀ (r : Attrs F) (v : JVal F), slotKeyframeCls.setDefaults true r = r → Dict.get? r s!!"time" = some v → v ≠ .null := by
            intro r v hf hg h0
            have := Editor.Attrs.fixed_iff.1 hf _ (Dict.mem_of_get? hg) h0
            simp [Cls.dflt, hd] at this
          exact .inr ⟨zero_of hd (nn r v fx e1) n1, zero_of hd (nn r' w fy e2) n2⟩

theorem draw_time {t u : DrawTl F} (h : DrR b t u) (ft : t.setDefaults b = t) (fu : u.setDefaults b = u) : TimeR t.time u.time := by
  have := h.2 []
  obtain ⟨v, o⟩ := t
  obtain ⟨w, o'⟩ := u
  unfold DrawTl.toJson at this
  injection this with this
  simp only at this
  show TimeR v w
  by_cases e1 : (drawCls (F := F)).emits b s!!"time" v = true <;> by_cases e2 : (drawCls (F := F)).emits b s!!"time" w = true
  · simp [e1, e2] at this
    exact .inl this
  · simp [e1, e2] at this
  · simp [e1, e2] at this
  · have e1 : (drawCls (F := F)).emits b s!!"time" v = false := by simpa using e1
    have e2 : (drawCls (F := F)).emits b s!!"time" w = false := by simpa using e2
    cases b with
    | false =>
      have hd : Dict.get? ((drawCls (F := F)).defaultsFor false) s!!"time" = none := rfl
      have key : ∀ v : JVal F, (drawCls (F := F)).emits false s!!"time" v = false → v = .null := by
        intro v hv
        unfold Cls.emits at hv
        rw [hd] at hv
        exact (Cls.isNull_iff v).1 (by simpa using hv)
      exact .inl ((key v e1).trans (key w e2).symm)
    | true =>
      have hd : Dict.get? ((drawCls (F := F)).defaultsFor true) s!!"time" = some (.int 0) := rfl
      have nn : ∀ (t : DrawTl F), t.setDefaults true = t → t.time ≠ .null := by
        intro t hf h0
        have := congrArg DrawTl.time hf
        unfold DrawTl.setDefaults at this
        rw [h0] at this
        simp [Cls.setDefaults, hd, Attrs.val, Dict.get?] at this
      exact .inr ⟨zero_of hd (nn _ ft) e1, zero_of hd (nn _ fu) e2⟩

/-- keyframes that are saved alike and take effect together -/
structure Kf2 (b : Bool) (x y : SlotKf F) : Prop where
  json : x.toJson b = y.toJson b
  name : x.name = y.name
  time : TimeR x.time y.time

structure Tl2 (b : Bool) (t u : SlotTl F) : Prop where
  attachment : All₂ (Kf2 b) t.attachment u.attachment
  color : t.color.map (·.toJson b) = u.color.map (·.toJson b)
  twoColor : t.twoColor.map (·.toJson b) = u.twoColor.map (·.toJson b)

theorem Tl2.of {t u : SlotTl F} (h : t.toJson b = u.toJson b) (ht : SlotTl.Good t) (hu : SlotTl.Good u)
    (ft : t.setDefaults b = t) (fu : u.setDefaults b = u) : Tl2 b t u := by
  unfold SlotTl.toJson at h
  injection h with h
  have hg : ∀ k, Dict.get? _ k = Dict.get? _ k := fun k => congrArg (fun d => Dict.get? d k) h
  have e1 : t.attachment.map (·.toJson b) = u.attachment.map (·.toJson b) := by
    have := hg s!!"attachment"
    simp [get?_append, get?_jl_same, get?_jl_ne] at this
    exact jl_inj (by simpa using this)
  have e2 : t.color.map (·.toJson b) = u.color.map (·.toJson b) := by
    have := hg s!!"color"
    simp [get?_append, get?_jl_same, get?_jl_ne] at this
    exact jl_inj (by simpa using this)
  have e3 : t.twoColor.map (·.toJson b) = u.twoColor.map (·.toJson b) := by
    have := hg s!!"twoColor"
    simp [get?_append, get?_jl_same, get?_jl_ne] at this
    exact jl_inj (by simpa using this)
  have f1 : t.attachment.map (·.setDefaults b) = t.attachment := by
    have := congrArg SlotTl.attachment ft; exact this
  have f2 : u.attachment.map (·.setDefaults b) = u.attachment := by
    have := congrArg SlotTl.attachment fu; exact this
  refine ⟨(map_all₂ e1).mono' (fun x y hx hy h => ?_), e2, e3⟩
  have k := KfR.of h (ht.1 x hx) (hu.1 y hy) (map_fixed f1 hx) (map_fixed f2 hy)
  exact ⟨h, k.2.1, kf_time h (ht.1 x hx) (hu.1 y hy) (map_fixed f1 hx) (map_fixed f2 hy)⟩

structure An2 (b : Bool) (x y : Anim F) : Prop where
  slots : KR (Tl2 b) x.slots y.slots
  drawOrder : All₂ (fun t u => t.offsets = u.offsets ∧ TimeR t.time u.time) x.drawOrder y.drawOrder
  deform : KR (KR (KR (fun a a' => Anim.jlist deformCls b a = Anim.jlist deformCls b a'))) x.deform y.deform

theorem An2.of {x y : Anim F} (h : AnR b x y) (hx : ∀ p ∈ x.slots, SlotTl.Good p.2) (hy : ∀ p ∈ y.slots, SlotTl.Good p.2)
    (fx : x.setDefaults b = x) (fy : y.setDefaults b = y) : An2 b x y := by
  have sx := (Anim.fixed_iff.1 fx).2.2.2.1
  have sy := (Anim.fixed_iff.1 fy).2.2.2.1
  rw [dmap_fixed_iff] at sx sy
  have dx : x.drawOrder.map (DrawTl.setDefaults b) = x.drawOrder := congrArg Anim.drawOrder fx
  have dy : y.drawOrder.map (DrawTl.setDefaults b) = y.drawOrder := congrArg Anim.drawOrder fy
  refine ⟨h.slots.mono (fun k t u ht hu hr => Tl2.of hr.json (hx _ ht) (hy _ hu) (sx _ ht) (sy _ hu)), ?_, h.deform⟩
  exact h.drawOrder.mono' (fun t u ht hu hr => ⟨hr.1, draw_time hr (map_fixed dx ht) (map_fixed dy hu)⟩)

/-- documents that draw the same -/
structure Data2 (b : Bool) (x y : AnimData F) : Prop where
  slots : x.slots = y.slots
  skins : All₂ (SkinR b) x.skins y.skins
  animations : KR (An2 b) x.animations y.animations

theorem Data2.of {x y : AnimData F} (h : DataR b x y) (gx : Shaped x) (gy : Shaped y) (fx : x.setDefaults b = x) (fy : y.setDefaults b = y) : Data2 b x y := by
  have fx := (AnimData.fixed_iff.1 fx).2.2.2.2.2.2
  have fy := (AnimData.fixed_iff.1 fy).2.2.2.2.2.2
  rw [dmap_fixed_iff] at fx fy
  exact ⟨h.slots, h.skins, h.animations.mono (fun k s t hs ht hr => An2.of hr (gx.slots _ hs) (gy.slots _ ht) (fx _ hs) (fy _ ht))⟩

theorem KR.mem {α β : Type} {P : α → β → Prop} {d : Dict α} {e : Dict β} (h : KR P d e) {k : Str} {x : α} (hx : (k, x) ∈ d) : ∃ y, (k, y) ∈ e ∧ P x y := by
  obtain ⟨⟨k', y⟩, h1, h2, h3⟩ := h.left hx
  simp only at h2 h3
  subst h2
  exact ⟨y, h1, h3⟩

theorem KR.mem' {α β : Type} {P : α → β → Prop} {d : Dict α} {e : Dict β} (h : KR P d e) {k : Str} {y : β} (hy : (k, y) ∈ e) : ∃ x, (k, x) ∈ d ∧ P x y := by
  obtain ⟨⟨k', x⟩, h1, h2, h3⟩ := h.right hy
  simp only at h2 h3
  subst h2
  exact ⟨x, h1, h3⟩

theorem current_rel {x y : Anim F} (h : An2 b x y) {m : Moment F} {s : Slot F} {k : Str} (hc : x.Current m s k) : y.Current m s k := by
  cases hc with
  | setup h1 h2 => exact .setup (by rw [← h.slots.keys]; exact h1) h2
  | before h1 h2 h3 =>
    obtain ⟨u, h4, h5⟩ := h.slots.mem h1
    refine .before h4 (fun g hg => ?_) h3
    obtain ⟨f, hf, hr⟩ := h5.attachment.right hg
    rw [← hr.time.reached m]
    exact h2 f hf
  | keyframe h1 h2 h3 h4 h5 =>
    obtain ⟨u, h6, h7⟩ := h.slots.mem h1
    have h7 := h7.attachment
    rw [h2] at h7
    obtain ⟨l', r0, e0, _, h8⟩ := h7.append_left
    cases h8 with
    | @cons _ g _ r' hg hr =>
      refine .keyframe h6 e0 ((hg.time.reached m).1 h3) (fun g' hg' => ?_) (hg.name ▸ h5)
      obtain ⟨f', hf', hr'⟩ := hr.right hg'
      rw [← hr'.time.reached m]
      exact h4 f' hf'

theorem skinHas_rel {x y : AnimData F} (h : All₂ (SkinR b) x.skins y.skins) {skin slot k : Str} {a : Att F} (ha : x.SkinHas skin slot k a) :
    ∃ a', y.SkinHas skin slot k a' ∧ AttR b a a' := by
  obtain ⟨s, hs, rfl, d, hd, hk⟩ := ha
  obtain ⟨t, ht, h1, h2⟩ := h.left hs
  obtain ⟨d', hd', h3⟩ := h2.mem hd
  obtain ⟨a', ha', h4⟩ := h3.mem hk
  exact ⟨a', ⟨t, ht, h1.symm, d', hd', ha'⟩, h4⟩

theorem skinHas_rel' {x y : AnimData F} (h : All₂ (SkinR b) x.skins y.skins) {skin slot k : Str} {a : Att F} (ha : y.SkinHas skin slot k a) :
    ∃ a', x.SkinHas skin slot k a' := by
  obtain ⟨s, hs, rfl, d, hd, hk⟩ := ha
  obtain ⟨t, ht, h1, h2⟩ := h.right hs
  obtain ⟨d', hd', h3⟩ := h2.mem' hd
  obtain ⟨a', ha', h4⟩ := h3.mem' hk
  exact ⟨a', t, ht, h1, d', hd', ha'⟩

theorem finds_rel {x y : AnimData F} (h : All₂ (SkinR b) x.skins y.skins) {skin slot k from' : Str} {a : Att F} (ha : x.Finds skin slot k from' a) :
    ∃ a', y.Finds skin slot k from' a' ∧ AttR b a a' := by
  cases ha with
  | active h1 h2 =>
    obtain ⟨a', h3, h4⟩ := skinHas_rel h h2
    exact ⟨a', .active h1 h3, h4⟩
  | default h1 h2 h3 =>
    obtain ⟨a', h4, h5⟩ := skinHas_rel h h3
    refine ⟨a', .default h1 (fun z hz => ?_) h4, h5⟩
    obtain ⟨z', hz'⟩ := skinHas_rel' h hz
    exact h2 z' hz'

theorem colours_rel {x y : Anim F} (h : An2 b x y) (n : Str) : (x.colours n).1.map (·.toJson b) = (y.colours n).1.map (·.toJson b) ∧
    (x.colours n).2.map (·.toJson b) = (y.colours n).2.map (·.toJson b) := by
  unfold Anim.colours
  rcases h.slots.get? n with ⟨h1, h2⟩ | ⟨t, u, h1, h2, h3⟩
  · rw [h1, h2]; exact ⟨rfl, rfl⟩
  · rw [h1, h2]; exact ⟨h3.color, h3.twoColor⟩

theorem deforms_rel {x y : Anim F} (h : An2 b x y) (skin slot k : Str) :
    (x.deforms skin slot k).map (Anim.jlist deformCls b) = (y.deforms skin slot k).map (Anim.jlist deformCls b) := by
  unfold Anim.deforms
  rcases h.deform.get? skin with ⟨h1, h2⟩ | ⟨t, u, h1, h2, h3⟩
  · rw [h1, h2]
  · rw [h1, h2]
    simp only [Option.bind_some]
    rcases h3.get? slot with ⟨h4, h5⟩ | ⟨t', u', h4, h5, h6⟩
    · rw [h4, h5]
    · rw [h4, h5]
      simp only [Option.bind_some]
      rcases h6.get? k with ⟨h7, h8⟩ | ⟨t', u', h7, h8, h9⟩
      · rw [h7, h8]
      · rw [h7, h8]
        exact congrArg some h9

theorem draws_rel {x y : AnimData F} (h : Data2 b x y) {n : Str} {m : Moment F} {skin : Str} {w : Sprite.Saved F} (hd : x.DrawsSaved b n m skin w) :
    y.DrawsSaved b n m skin w := by
  obtain ⟨p, ⟨a, h1, h2, h3, h4, h5, h6, h7⟩, rfl⟩ := hd
  obtain ⟨a', k1, k2⟩ := h.animations.mem h1
  obtain ⟨t, k3, k4⟩ := finds_rel h.skins h4
  obtain ⟨c1, c2⟩ := colours_rel k2 p.slot.name
  rw [← h5] at c1 c2
  refine ⟨{ p with att := t, color := (a'.colours p.slot.name).1, twoColor := (a'.colours p.slot.name).2, deform := a'.deforms p.skin p.slot.name p.key },
    ⟨a', k1, h.slots ▸ h2, current_rel k2 h3, k3, rfl, fun ht => ?_, rfl⟩, ?_⟩
  · refine (h6 ht).imp (fun hn hc => hn ?_) (fun hn hc => hn ?_)
    · simp only at hc; rw [hc] at c1; simpa using c1
    · simp only at hc; rw [hc] at c2; simpa using c2
  · unfold Sprite.saved
    simp only [← c1, ← c2, ← k4.toJson, h7, deforms_rel k2]

theorem order_rel {x y : AnimData F} (h : Data2 b x y) {n : Str} {m : Moment F} {L : List (Slot F)} (hd : x.Order n m L) : y.Order n m L := by
  cases hd with
  | setup h1 h2 h3 =>
    obtain ⟨a', k1, k2⟩ := h.animations.mem h1
    refine .setup k1 (fun u hu => ?_) (h.slots ▸ h3)
    obtain ⟨t, ht, hr⟩ := k2.drawOrder.right hu
    rw [← hr.2.reached m]
    exact h2 t ht
  | keyframe h1 h2 h3 h4 h5 =>
    obtain ⟨a', k1, k2⟩ := h.animations.mem h1
    have k2 := k2.drawOrder
    rw [h2] at k2
    obtain ⟨l', r0, e0, _, h8⟩ := k2.append_left
    cases h8 with
    | @cons _ g _ r' hg hr =>
      refine .keyframe k1 e0 ((hg.2.reached m).1 h3) (fun u hu => ?_) (by rw [← h.slots, ← hg.1]; exact h5)
      obtain ⟨t, ht, hr'⟩ := hr.right hu
      rw [← hr'.2.reached m]
      exact h4 t ht

end State
end Spine
