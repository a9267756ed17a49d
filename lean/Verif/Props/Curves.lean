import Verif.Props.Leaf
/-
C30: which attributes of which objects are cleared for old versions.
-/
namespace Spine
open JVal
variable {F : Type} [PyRt F]
namespace Curves

/-- the keyframes with a curve, and whether clean_unsupported_attributes clears it -/
def cleared : List (Cls F × Bool) :=
  [(boneTranslateCls, true), (boneRotateCls, true), (slotKeyframeCls, true), (ikTimelineCls, true), (deformCls, false),
   (transformTimelineCls, false), (pathTimelineCls, false)]

/-- the three attributes of a curve that came with 3.8 -/
def names : List Str := [s!!"c2", s!!"c3", s!!"c4"]

omit [PyRt F] in
theorem get?_clear (l : List Str) (a : Attrs F) (k : Str) :
    Dict.get? (a.map (fun p => if p.1 ∈ l then (p.1, JVal.null) else p)) k = (Dict.get? a k).map (fun w => if k ∈ l then .null else w) := by
  induction a with
  | nil => rfl
  | cons p a ih =>
    obtain ⟨x, w⟩ := p
    rw [List.map_cons]
    by_cases hx : x ∈ l <;> by_cases hk : x = k
    · subst hk; simp [Dict.get?, hx]
    · simp [Dict.get?, hx, hk]; exact ih
    · subst hk; simp [Dict.get?, hx]
    · simp [Dict.get?, hx, hk]; exact ih

/-- C30: for the versions for which anything is cleared, the curves of bone, slot and ik keyframes are cleared and those of deform,
transform and path keyframes are not. -/
theorem c30_curves_partial {p : Cls F × Bool} (hp : p ∈ cleared) (v : Version) (hv : v.major < 3 ∧ v.minor < 8 ∧ v.patch < 0) (a : Attrs F)
    {k : Str} (hk : k ∈ names) : Dict.get? (p.1.removeUnsupported v a) k = (Dict.get? a k).map (fun w => if p.2 then .null else w) := by
  rw [(c30_exact_partial p.1 v a).1 hv, get?_clear]
  congr 1
  funext w
  have : k ∈ p.1.unsupportedOld ↔ p.2 = true := by
    simp only [cleared, List.mem_cons, List.not_mem_nil, or_false] at hp
    simp only [names, List.mem_cons, List.not_mem_nil, or_false] at hk
    rcases hp with rfl | rfl | rfl | rfl | rfl | rfl | rfl <;> rcases hk with rfl | rfl | rfl <;>
      simp [boneTranslateCls, boneRotateCls, slotKeyframeCls, ikTimelineCls, deformCls, transformTimelineCls, pathTimelineCls]
  by_cases h : p.2 = true
  · rw [if_pos (this.2 h), if_pos h]
  · rw [if_neg (fun h' => h (this.1 h')), if_neg h]

/-- C30: for every version and every object, nothing but the curve is ever cleared. -/
theorem c30_others {c : Cls F} (hc : c ∈ leafClasses) (v : Version) (a : Attrs F) {k : Str} (hk : k ∉ names) :
    Dict.get? (c.removeUnsupported v a) k = Dict.get? a k := by
  by_cases hv : v.major < 3 ∧ v.minor < 8 ∧ v.patch < 0
  · rw [(c30_exact_partial c v a).1 hv, get?_clear]
    have : k ∉ c.unsupportedOld := by
      simp only [leafClasses, List.mem_cons, List.not_mem_nil, or_false] at hc
      rcases hc with rfl | rfl | rfl | rfl | rfl | rfl | rfl | rfl | rfl | rfl | rfl | rfl | rfl | rfl | rfl | rfl | rfl | rfl | rfl | rfl | rfl | rfl <;>
        first | exact hk | exact List.not_mem_nil
    simp only [if_neg this]
    cases Dict.get? a k <;> rfl
  · rw [(c30_exact_partial c v a).2 hv]

/-- every object with a curve is listed -/
theorem c30_listed : ∀ c ∈ leafClasses (F := F), s!!"c2" ∈ c.attrs → ∃ b, (c, b) ∈ cleared := by
  intro c hc
  simp only [leafClasses, List.mem_cons, List.not_mem_nil, or_false] at hc
  rcases hc with rfl | rfl | rfl | rfl | rfl | rfl | rfl | rfl | rfl | rfl | rfl | rfl | rfl | rfl | rfl | rfl | rfl | rfl | rfl | rfl | rfl | rfl
  all_goals first
    | (intro _; refine ⟨true, ?_⟩; simp [cleared]; done)
    | (intro _; refine ⟨false, ?_⟩; simp [cleared]; done)
    | (intro h; simp [boneCls, slotCls, eventsCls, eventTimelineCls, ikCls, transformCls, pathCls, offsetCls, regionCls, meshCls, skinPathCls, linkedMeshCls,
        boundingBoxCls, pointCls, clippingCls] at h; done)

example : Dict.get? ((slotKeyframeCls (F := F)).removeUnsupported ⟨s!!"2.7.-1", 2, 7, -1⟩ [(s!!"time", .int 3), (s!!"c2", .int 1)]) s!!"c2" = some .null ∧
    Dict.get? ((deformCls (F := F)).removeUnsupported ⟨s!!"2.7.-1", 2, 7, -1⟩ [(s!!"time", .int 3), (s!!"c2", .int 1)]) s!!"c2" = some (.int 1) := ⟨rfl, rfl⟩

end Curves
end Spine
