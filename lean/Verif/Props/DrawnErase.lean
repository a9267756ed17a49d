import Verif.Props.Drawn
import Verif.Props.EraseSkins
/-
C62 for the other calls: what `erase_animations` and `erase_skins` leave is drawn as before.
-/
set_option linter.unusedSectionVars false
set_option linter.unusedSimpArgs false
namespace Spine
open JVal Graph Container Editor
variable {F : Type} [PyRt F]

theorem AnimData.draws_filterAnims (a : AnimData F) (f : Str × Anim F → Bool) {n : Str} (hf : ∀ x, (n, x) ∈ a.animations → f (n, x) = true)
    (m : Moment F) (skin : Str) (p : Sprite F) :
    AnimData.Draws { a with animations := a.animations.filter f } n m skin p ↔ a.Draws n m skin p := by
  have key : ∀ k sk x, AnimData.Finds { a with animations := a.animations.filter f } skin p.slot.name k sk x ↔
      a.Finds skin p.slot.name k sk x := by
    intro k sk x
    constructor
    · intro h
      cases h with
      | active e h => exact .active e h
      | default e h h' => exact .default e h h'
    · intro h
      cases h with
      | active e h => exact .active e h
      | default e h h' => exact .default e h h'
  constructor
  · rintro ⟨x, hx, h1, h2, h3, h4⟩
    exact ⟨x, (List.mem_filter.1 hx).1, h1, h2, (key _ _ _).1 h3, h4⟩
  · rintro ⟨x, hx, h1, h2, h3, h4⟩
    exact ⟨x, List.mem_filter.2 ⟨hx, hf x hx⟩, h1, h2, (key _ _ _).2 h3, h4⟩

theorem AnimData.draws_dropSkins (a : AnimData F) (names : List Str) (n : Str) (m : Moment F) {skin : Str} (h1 : skin ∉ names)
    (h2 : s!!"default" ∉ names) (p : Sprite F) :
    AnimData.Draws { a with skins := a.skins.filter (fun s => s.name ∉ names), animations := dmap (dropDeforms names) a.animations } n m skin p ↔
      a.Draws n m skin p := by
  have hh : ∀ sk, sk ∉ names → ∀ slot k x, AnimData.SkinHas { a with
      skins := a.skins.filter (fun s => s.name ∉ names), animations := dmap (dropDeforms names) a.animations } sk slot k x ↔ a.SkinHas sk slot k x := by
    intro sk hsk slot k x
    constructor
    · rintro ⟨s, hs, h⟩; exact ⟨s, (List.mem_filter.1 hs).1, h⟩
    · rintro ⟨s, hs, rfl, h⟩; exact ⟨s, List.mem_filter.2 ⟨hs, by simpa using hsk⟩, rfl, h⟩
  have key : ∀ k sk x, AnimData.Finds { a with skins := a.skins.filter (fun s => s.name ∉ names), animations := dmap (dropDeforms names) a.animations } skin p.slot.name k sk x ↔
      a.Finds skin p.slot.name k sk x := by
    intro k sk x
    constructor
    · intro h
      cases h with
      | active e h => exact .active e ((hh _ h1 _ _ _).1 h)
      | default e h h' => exact .default e (fun y hy => h y ((hh _ h1 _ _ _).2 hy)) ((hh _ h2 _ _ _).1 h')
    · intro h
      cases h with
      | active e h => exact .active e ((hh _ h1 _ _ _).2 h)
      | default e h h' => exact .default e (fun y hy => h y ((hh _ h1 _ _ _).1 hy)) ((hh _ h2 _ _ _).2 h')
  have hdef : ∀ x : Anim F, ∀ sk slot k, sk ∉ names → (dropDeforms names x).deforms sk slot k = x.deforms sk slot k := by
    intro x sk slot k hsk
    unfold Anim.deforms dropDeforms
    rw [Editor.get?_filter_keep _ _ _ hsk]
  have hsk : ∀ k sk x, a.Finds skin p.slot.name k sk x → sk ∉ names := by
    intro k sk x h
    cases h with
    | active e _ => rw [e]; exact h1
    | default e _ _ => rw [e]; exact h2
  have hcur : ∀ x : Anim F, ∀ s k, (dropDeforms names x).Current m s k ↔ x.Current m s k := by
    intro x s k
    constructor
    · intro h
      cases h with
      | setup h1 h2 => exact .setup h1 h2
      | before h1 h2 h3 => exact .before h1 h2 h3
      | keyframe h1 h2 h3 h4 h5 => exact .keyframe h1 h2 h3 h4 h5
    · intro h
      cases h with
      | setup h1 h2 => exact .setup h1 h2
      | before h1 h2 h3 => exact .before h1 h2 h3
      | keyframe h1 h2 h3 h4 h5 => exact .keyframe h1 h2 h3 h4 h5
  constructor
  · rintro ⟨x', hx, h1, h2, h3, h4, h5, h6⟩
    obtain ⟨x, hx0, rfl⟩ := (mem_dmap _ _ _ _).1 hx
    have h3 := (key _ _ _).1 h3
    exact ⟨x, hx0, h1, (hcur _ _ _).1 h2, h3, h4, h5, by rw [h6, hdef _ _ _ _ (hsk _ _ _ h3)]⟩
  · rintro ⟨x, hx, h1, h2, h3, h4, h5, h6⟩
    exact ⟨_, (mem_dmap _ _ _ _).2 ⟨x, hx, rfl⟩, h1, (hcur _ _ _).2 h2, (key _ _ _).2 h3, h4, h5, by rw [h6, hdef _ _ _ _ (hsk _ _ _ h3)]⟩

namespace Editor
variable {e e' : Editor F}

theorem ordinary_filterAnims {a : AnimData F} (h : a.Ordinary) (f : Str × Anim F → Bool) :
    AnimData.Ordinary { a with animations := a.animations.filter f } :=
  ⟨fun p hp => h.timelines p (List.mem_filter.1 hp).1, h.none⟩

theorem cleanUnless_draws {safe : Bool} {r : List Str × List Str} (hs : Sync e) (ho : e.data.Ordinary)
    (h : cleanUnless safe e = (.ok r, e')) (n : Str) (m : Moment F) (skin : Str) (p : Sprite F) :
    e'.data.Draws n m skin p ↔ e.data.Draws n m skin p := by
  unfold cleanUnless at h
  split at h
  · simp only [Prod.mk.injEq] at h; rw [← h.2]
  · exact clean_draws (ids := r.1) (atts := r.2) hs ho h n m skin p

/-- C62 for `erase_animations`: the animations that stay draw the same as before, in safe mode or not.  Missing: as in
`c62_drawn_partial`. -/
theorem c62_erase_animations_partial {names : List Str} {strict safe : Bool} {r : JVal F × List Str × List Str} (hr : Ran e)
    (ho : e.data.Ordinary) (h : eraseAnims (.list names) strict safe e = (.ok r, e')) {n : Str} (hn : n ∉ names) (m : Moment F)
    (skin : Str) (p : Sprite F) : e'.data.Draws n m skin p ↔ e.data.Draws n m skin p := by
  unfold eraseAnims at h
  simp only at h
  split at h
  · simp at h
  · rw [eraseRaw_fst] at h
    split at h
    · simp at h
    · rename_i r' e1 h1
      simp only [Prod.mk.injEq] at h
      rw [← h.2, cleanUnless_draws (sync_filterAnims hr.sync _) (ordinary_filterAnims ho _) h1]
      exact AnimData.draws_filterAnims e.data _ (fun x _ => by simpa using hn) m skin p

theorem removeSkins_noLinks {names : List Str} {a a' : AnimData F} {r : List (Option Str) × List Str} (h : removeSkins names a = (.ok r, a'))
    (hno : ∀ slot key x, a.HasAtt slot key x → ∀ n ∈ names, ¬ x.LinksTo n) :
    a' = { a with skins := a.skins.filter (fun s => s.name ∉ names), animations := dmap (dropDeforms names) a.animations } := by
  rw [(removeSkins_facts h).2.2.2]
  have : a'.skins = a.skins.filter (fun s => s.name ∉ names) := by
    have := removeSkins_after h (fun slot key x n hx hn hl => absurd hl (hno slot key x hx n hn))
    refine All₂.eq_of this ?_
    intro s s' hs ⟨e1, hatt⟩
    have hs := (List.mem_filter.1 hs).1
    have : s'.attachments = s.attachments := by
      refine All₂.eq_of hatt ?_
      rintro ⟨slot, d⟩ ⟨slot', d'⟩ hd ⟨e2, hq⟩
      simp only at e2 hq
      rw [e2]
      refine Prod.ext rfl ?_
      refine All₂.eq_of hq ?_
      rintro ⟨k, x⟩ ⟨k', x'⟩ hx ⟨e3, hf⟩
      simp only at e3 hf
      rw [e3]
      refine Prod.ext rfl ?_
      cases hf with
      | same => rfl
      | copy hn hl _ _ _ => exact absurd hl (hno _ _ _ ⟨s, hs, d, hd, hx⟩ _ hn)
    cases s; cases s'
    simp only at e1 this
    rw [e1, this]
  rw [this]

/-- C62 for `erase_skins`: with an active skin that stays, and the skin "default" staying, every animation draws the same as
before, in safe mode or not.  Missing: besides the cases of `c62_drawn_partial`, meshes linked to a removed skin, which are
replaced (C50). -/
theorem c62_erase_skins_partial {names : List Str} {safe : Bool} {r : List Str × List Str} {gone : List (Option Str)} (hr : Ran e)
    (ho : e.data.Ordinary) (h : eraseSkins names safe e = (.ok (r, gone), e'))
    (hno : ∀ slot key x, e.data.HasAtt slot key x → ∀ n ∈ names, ¬ x.LinksTo n) {skin : Str} (h1 : skin ∉ names)
    (h2 : s!!"default" ∉ names) (n : Str) (m : Moment F) (p : Sprite F) :
    e'.data.Draws n m skin p ↔ e.data.Draws n m skin p := by
  obtain ⟨imgs, regions, a, g, e1, h3, h4, h5, h6, rfl⟩ := eraseSkins_ok h
  have s1 := sync_removeSkins hr.sync h3 h4
  have ea := removeSkins_noLinks h3 hno
  have ho' : a.Ordinary := by
    rw [ea]
    refine ⟨fun p hp => ?_, ?_⟩
    · obtain ⟨x, hx, e2⟩ := (mem_dmap _ _ p.1 p.2).1 hp
      rw [← e2]; exact ho.timelines _ hx
    · rintro slot x ⟨s, hs, hx⟩
      exact ho.none slot x ⟨s, (List.mem_filter.1 hs).1, hx⟩
  have h7 := cleanUnless_draws s1 ho' h6 n m skin p
  refine Iff.trans (Iff.trans ?_ h7) ?_
  · exact Iff.rfl
  · show a.Draws n m skin p ↔ _
    rw [ea]
    exact AnimData.draws_dropSkins e.data names n m h1 h2 p

end Editor
end Spine
