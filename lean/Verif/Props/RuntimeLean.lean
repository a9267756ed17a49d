import Verif.Props.Runtime

/-! # C61: which attributes the saved objects still carry although a reader would assume them -/
namespace Spine
open JVal
variable {F : Type} [PyRt F]
namespace Runtime

/-! ## Specification -/

/-- the objects of a document, what a reader assumes for them, the attributes whose default in the library differs from that (they are
the subject of the counterexamples of C61), and the attributes for which the library has no default -/
def keeps : List (Cls F × Dict (JVal F) × List Str × List Str) :=
  [(boneCls, bone, [], []), (boneTranslateCls, translate, [], []), (boneRotateCls, rotate, [], []),
   (slotCls, slot, [], [s!!"color", s!!"blend"]), (slotKeyframeCls, slotKeyframe, [], []), (eventsCls, event, [], []),
   (eventTimelineCls, eventKeyframe (.int 0) (.int 0) (.str []) (.int 1) (.int 0), [], []),
   (deformCls, deform, [s!!"offset"], []), (ikCls, ik, [], [s!!"mix"]), (ikTimelineCls, ikKeyframe, [], [s!!"mix"]),
   (transformCls, transform, [s!!"scaleX", s!!"scaleY"],
     [s!!"rotateMix", s!!"translateMix", s!!"scaleMix", s!!"shearMix", s!!"local", s!!"relative"]),
   (transformTimelineCls, transformKeyframe, [], [s!!"rotateMix", s!!"translateMix", s!!"scaleMix", s!!"shearMix"]),
   (pathCls, path, [s!!"spacing", s!!"positionMode", s!!"spacingMode", s!!"rotateMode"], [s!!"order"]),
   (pathTimelineCls, pathKeyframe, [s!!"spacing"], [s!!"time"]), (regionCls, region, [], [s!!"color"]), (meshCls, mesh, [], [s!!"color"]),
   (skinPathCls, pathAttachment, [], []), (linkedMeshCls, linkedMesh, [], [s!!"color"]), (pointCls, point, [], [])]

/-! ## Proofs -/

/-- the table of C61 with one more column -/
theorem keeps_table : (keeps (F := F)).map (fun p => (p.1, p.2.1, p.2.2.1)) = table := rfl

theorem keeps_mem {p : Cls F × Dict (JVal F) × List Str × List Str} (hp : p ∈ keeps) : (p.1, p.2.1, p.2.2.1) ∈ table := by
  rw [← keeps_table]; exact List.mem_map_of_mem hp

theorem splits : ∀ p ∈ keeps (F := F), ∀ q ∈ p.2.1, q.1 ∉ p.2.2.1 →
    (q.1 ∈ p.2.2.2 → Dict.get? p.1.defaults38 q.1 = none) ∧ (q.1 ∉ p.2.2.2 → Dict.get? p.1.defaults38 q.1 = some q.2) := by
  intro p hp
  simp only [keeps, List.mem_cons, List.not_mem_nil, or_false] at hp
  rcases hp with rfl | rfl | rfl | rfl | rfl | rfl | rfl | rfl | rfl | rfl | rfl | rfl | rfl | rfl | rfl | rfl | rfl | rfl | rfl
  all_goals
    intro q hq hx
    simp only [bone, translate, rotate, slot, slotKeyframe, event, eventKeyframe, deform, ik, ikKeyframe, transform, transformKeyframe, path, pathKeyframe,
      region, mesh, pathAttachment, linkedMesh, point, curve, List.cons_append, List.nil_append, List.mem_cons, List.not_mem_nil, or_false] at hq hx
    revert hx
    repeat' (rcases hq with rfl | hq)
    all_goals try subst hq
    all_goals first
      | (intro h; refine absurd ?_ h; simp; done)
      | (intro _; refine ⟨fun h => absurd h ?_, fun _ => rfl⟩; simp; done)
      | (intro _; refine ⟨fun _ => rfl, fun h => absurd ?_ h⟩; simp; done)

/-! ## C61 -/

/-- C61, the other direction: no attribute of a saved object has the value a reader assumes anyway, whatever the loaded object had.
Missing: the attributes for which the library has no default (`c61_kept`) or another one. -/
theorem c61_dropped_partial {p : Cls F × Dict (JVal F) × List Str × List Str} (hp : p ∈ keeps) {d : Dict (JVal F)} {a : Attrs F}
    (h : p.1.init (.dict d) = .ok a) :
    ∃ out, p.1.toJson true (p.1.setDefaults true a) = .dict out ∧
      ∀ q ∈ p.2.1, q.1 ∉ p.2.2.1 → q.1 ∉ p.2.2.2 → ∀ v, Dict.get? out q.1 = some v → pyEq v q.2 = false := by
  obtain ⟨hc, hq⟩ := known _ (keeps_mem hp)
  refine ⟨_, rfl, ?_⟩
  rintro ⟨k, w⟩ hk hx hx2 v hv
  obtain ⟨h1, h2, _⟩ := hq _ hk
  obtain ⟨out, h4, h5⟩ := written hc h true h1
  injection h4 with h4
  rw [h4] at hv
  have hag := (splits p hp _ hk hx).2 hx2
  simp only at hag hv h2
  rw [h5, Option.filter_some] at hv
  split at hv
  · rename_i he
    injection hv with hv
    subst hv
    unfold Cls.emits Cls.defaultsFor at he
    have hw : w.isNull = false := by
      cases h : w.isNull with
      | false => rfl
      | true => exact absurd ((Cls.isNull_iff w).1 h) h2
    simp only [if_true] at he
    rw [hag] at he
    exact (by simpa [hw] using he : _ ∧ _).2
  · cases hv

/-- C61, the other direction, is false of the attributes for which the library has no default: they are written whenever they are set,
also if a reader would assume the value. -/
theorem c61_kept {p : Cls F × Dict (JVal F) × List Str × List Str} (hp : p ∈ keeps) {d : Dict (JVal F)} {a : Attrs F}
    (h : p.1.init (.dict d) = .ok a) :
    ∃ out, p.1.toJson true (p.1.setDefaults true a) = .dict out ∧
      ∀ q ∈ p.2.1, q.1 ∉ p.2.2.1 → q.1 ∈ p.2.2.2 → ∀ v, v ≠ .null → Dict.get? d q.1 = some v → Dict.get? out q.1 = some v := by
  obtain ⟨hc, hq⟩ := known _ (keeps_mem hp)
  refine ⟨_, rfl, ?_⟩
  rintro ⟨k, w⟩ hk hx hx2 v hn hv
  obtain ⟨h1, _, _⟩ := hq _ hk
  obtain ⟨out, h4, h5⟩ := written hc h true h1
  injection h4 with h4
  rw [h4]
  have hag := (splits p hp _ hk hx).1 hx2
  simp only at hag hv ⊢
  rw [h5, hv, Option.getD_some]
  have hv' : Cls.dflt p.1 true k v = v := by cases v <;> first | rfl | exact absurd rfl hn
  rw [hv', Option.filter_some, if_pos]
  unfold Cls.emits Cls.defaultsFor
  have hvn : v.isNull = false := by
    cases h : v.isNull with
    | false => rfl
    | true => exact absurd ((Cls.isNull_iff v).1 h) hn
  simp [hag, hvn]

/-- non-vacuity: a point with the default `y` and another `x`; a slot whose colour is white -/
example : ∃ a, (pointCls (F := F)).init (.dict [(s!!"x", .int 3), (s!!"y", .int 0)]) = .ok a ∧
    pointCls.toJson true (pointCls.setDefaults true a) = .dict [(s!!"x", .int 3)] := ⟨_, rfl, rfl⟩
example : ∃ a, (slotCls (F := F)).init (.dict [(s!!"name", .str s!!"s"), (s!!"bone", .str s!!"b"), (s!!"color", .str s!!"ffffffff")]) = .ok a ∧
    slotCls.toJson true (slotCls.setDefaults true a) =
      .dict [(s!!"name", .str s!!"s"), (s!!"bone", .str s!!"b"), (s!!"color", .str s!!"ffffffff")] := ⟨_, rfl, rfl⟩

end Runtime
end Spine
