import Verif.Spec.Runtime
import Verif.Props.Leaf
/-
C61: attributes are dropped only when a reader assumes the same value.
-/
set_option linter.unusedSectionVars false
namespace Spine
open JVal
variable {F : Type} [PyRt F]
namespace Runtime

/-! ## Specification -/

/-- the objects of a document, what a reader assumes for them (for keyframes of events:
when the event itself has the default values), and the attributes for which C61 is false or where the value
the library drops is not a legal value (see the counterexamples) -/
def table : List (Cls F × Dict (JVal F) × List Str) :=
  [(boneCls, bone, []), (boneTranslateCls, translate, []), (boneRotateCls, rotate, []), (slotCls, slot, []),
   (slotKeyframeCls, slotKeyframe, []), (eventsCls, event, []), (eventTimelineCls, eventKeyframe (.int 0) (.int 0) (.str []) (.int 1) (.int 0), []),
   (deformCls, deform, [s!!"offset"]), (ikCls, ik, []), (ikTimelineCls, ikKeyframe, []),
   (transformCls, transform, [s!!"scaleX", s!!"scaleY"]), (transformTimelineCls, transformKeyframe, []),
   (pathCls, path, [s!!"spacing", s!!"positionMode", s!!"spacingMode", s!!"rotateMode"]),
   (pathTimelineCls, pathKeyframe, [s!!"spacing"]), (regionCls, region, []), (meshCls, mesh, []), (skinPathCls, pathAttachment, []),
   (linkedMeshCls, linkedMesh, []), (pointCls, point, [])]

/-- A reader takes the same from the output as from the input for attribute `k`. -/
def Same (assumed d out : Dict (JVal F)) (k : Str) : Prop :=
  ∀ v, v ≠ .null → ReadsAs assumed d k v → ∃ w, ReadsAs assumed out k w ∧ (w = v ∨ pyEq v w = true)

/-! ## Proofs -/

/-- the value the library assumes is the value a reader assumes -/
theorem agree : ∀ p ∈ table (F := F), ∀ q ∈ p.2.1, q.1 ∉ p.2.2 →
    Dict.get? p.1.defaults38 q.1 = none ∨ Dict.get? p.1.defaults38 q.1 = some q.2 := by
  intro p hp
  simp only [table, List.mem_cons, List.not_mem_nil, or_false] at hp
  rcases hp with rfl | rfl | rfl | rfl | rfl | rfl | rfl | rfl | rfl | rfl | rfl | rfl | rfl | rfl | rfl | rfl | rfl | rfl | rfl
  all_goals
    intro q hq hx
    simp only [bone, translate, rotate, slot, slotKeyframe, event, eventKeyframe, deform, ik, ikKeyframe, transform, transformKeyframe, path, pathKeyframe,
      region, mesh, pathAttachment, linkedMesh, point, curve, List.cons_append, List.nil_append, List.mem_cons, List.not_mem_nil, or_false] at hq hx
    revert hx
    repeat' (rcases hq with rfl | hq)
    all_goals try subst hq
    all_goals first | (intro _; exact .inl rfl) | (intro _; exact .inr rfl) | (intro h; exact absurd (by simp) h)

theorem known : ∀ p ∈ table (F := F), p.1.OK ∧ ∀ q ∈ p.2.1, q.1 ∈ p.1.attrs ∧ q.2 ≠ .null ∧ (Dict.get? p.1.defaults38 q.1 ≠ some .null) := by
  intro p hp
  refine ⟨Cls.leafClasses_ok _ ?_, ?_⟩
  · simp only [table, List.mem_cons, List.not_mem_nil, or_false] at hp
    rcases hp with rfl | rfl | rfl | rfl | rfl | rfl | rfl | rfl | rfl | rfl | rfl | rfl | rfl | rfl | rfl | rfl | rfl | rfl | rfl <;> simp [leafClasses]
  · simp only [table, List.mem_cons, List.not_mem_nil, or_false] at hp
    rcases hp with rfl | rfl | rfl | rfl | rfl | rfl | rfl | rfl | rfl | rfl | rfl | rfl | rfl | rfl | rfl | rfl | rfl | rfl | rfl
    all_goals
      intro q hq
      simp only [bone, translate, rotate, slot, slotKeyframe, event, eventKeyframe, deform, ik, ikKeyframe, transform, transformKeyframe, path, pathKeyframe,
        region, mesh, pathAttachment, linkedMesh, point, curve, white, List.cons_append, List.nil_append, List.mem_cons, List.not_mem_nil, or_false] at hq
      repeat' (rcases hq with rfl | hq)
      all_goals try subst hq
      all_goals refine ⟨?_, (fun h => nomatch h), (fun h => nomatch h)⟩
      all_goals simp [boneCls, boneTranslateCls, boneRotateCls, slotCls, slotKeyframeCls, eventsCls, eventTimelineCls, deformCls, ikCls, ikTimelineCls,
        transformCls, transformTimelineCls, pathCls, pathTimelineCls, regionCls, meshCls, skinPathCls, linkedMeshCls, pointCls]

theorem written {c : Cls F} (hc : c.OK) {d : Dict (JVal F)} {a : Attrs F} (h : c.init (.dict d) = .ok a) (b : Bool) {k : Str} (hk : k ∈ c.attrs) :
    ∃ out, c.toJson b (c.setDefaults b a) = .dict out ∧
      Dict.get? out k = (some (Cls.dflt c b k ((Dict.get? d k).getD .null))).filter (c.emits b k) := by
  refine ⟨_, rfl, ?_⟩
  unfold Cls.init at h
  rw [Cls.values_dict] at h
  simp only [bind, Except.bind] at h
  split at h
  · cases h
  · injection h with h
    subst h
    have look : ∀ l : List Str, k ∈ l → Dict.get? (l.map (fun k => (k, (Dict.get? d k).getD JVal.null))) k = some ((Dict.get? d k).getD .null) := by
      intro l
      induction l with
      | nil => simp
      | cons y r ih =>
        intro hm
        simp only [List.map_cons, Dict.get?]
        split
        · rename_i e; subst e; rfl
        · rename_i e
          rcases List.mem_cons.1 hm with h | h
          · exact absurd h.symm e
          · exact ih h
    rw [Cls.get?_filter _ (c.emits b) (by
      rw [Cls.keys_setDefaults]; simpa [Dict.keys, List.map_map, Function.comp_def] using hc.nodup), Cls.get?_setDefaults, look _ hk]
    rfl

/-! ## C61 -/

/-- C61 for one object: a reader takes from the output the value it takes from the input, for every attribute that is not listed. -/
theorem c61_object_partial {p : Cls F × Dict (JVal F) × List Str} (hp : p ∈ table) {d : Dict (JVal F)} {a : Attrs F}
    (h : p.1.init (.dict d) = .ok a) :
    ∃ out, p.1.toJson true (p.1.setDefaults true a) = .dict out ∧ ∀ q ∈ p.2.1, q.1 ∉ p.2.2 → Same p.2.1 d out q.1 := by
  obtain ⟨hc, hq⟩ := known p hp
  refine ⟨_, rfl, ?_⟩
  rintro ⟨k, w⟩ hk hx v hv hr
  obtain ⟨h1, _, h3⟩ := hq _ hk
  obtain ⟨out, h4, h5⟩ := written hc h true h1
  injection h4 with h4
  rw [h4]
  have hag := agree p hp _ hk hx
  simp only at hag h3
  rcases hr with hr | ⟨hr, hm⟩
  · rw [hr, Option.getD_some] at h5
    have hv' : Cls.dflt p.1 true k v = v := by cases v <;> first | rfl | exact absurd rfl hv
    rw [hv', Option.filter_some] at h5
    split at h5
    · exact ⟨v, .inl h5, .inl rfl⟩
    · rename_i he
      refine ⟨w, .inr ⟨h5, hk⟩, .inr ?_⟩
      unfold Cls.emits Cls.defaultsFor at he
      have hvn : v.isNull = false := by
        cases h : v.isNull with
        | false => rfl
        | true => exact absurd ((Cls.isNull_iff v).1 h) hv
      rcases hag with hag | hag
      · simp [hag, hvn] at he
      · simpa [hag, hvn] using he
  · refine ⟨v, .inr ⟨?_, hm⟩, .inl rfl⟩
    rw [hr, Option.getD_none, Option.filter_some] at h5
    rw [h5, if_neg]
    unfold Cls.dflt
    simp only
    cases hd : Dict.get? (p.1.defaultsFor true) k with
    | none => simp [Cls.emits, hd, isNull]
    | some dv =>
      have := hc.refl true k dv hd
      have hn : dv.isNull = false := by
        cases h : dv.isNull with
        | false => rfl
        | true =>
          rw [(Cls.isNull_iff dv).1 h] at hd
          exact absurd hd h3
      simp [Cls.emits, hd, this, hn]

/-- C61 for the listed attributes: they are read as before unless they have exactly the value the library assumes. -/
theorem c61_other_values_partial {p : Cls F × Dict (JVal F) × List Str} (hp : p ∈ table) {d : Dict (JVal F)} {a : Attrs F}
    (h : p.1.init (.dict d) = .ok a) :
    ∃ out, p.1.toJson true (p.1.setDefaults true a) = .dict out ∧ ∀ k v dv, (∃ w, (k, w) ∈ p.2.1) → v ≠ .null → Dict.get? d k = some v →
      Dict.get? p.1.defaults38 k = some dv → (Dict.get? out k = some v ↔ pyEq v dv = false) := by
  obtain ⟨hc, hq⟩ := known p hp
  refine ⟨_, rfl, ?_⟩
  rintro k v dv ⟨w, hk⟩ hv hd hdv
  obtain ⟨h1, _, h3⟩ := hq _ hk
  obtain ⟨out, h4, h5⟩ := written hc h true h1
  injection h4 with h4
  rw [h4]
  have hv' : Cls.dflt p.1 true k v = v := by cases v <;> first | rfl | exact absurd rfl hv
  have hvn : v.isNull = false := by
    cases h : v.isNull with
    | false => rfl
    | true => exact absurd ((Cls.isNull_iff v).1 h) hv
  have hdv' : Dict.get? (p.1.defaultsFor true) k = some dv := hdv
  rw [h5, hd, Option.getD_some, hv', Option.filter_some]
  simp only [Cls.emits, hdv', hvn]
  cases pyEq v dv <;> simp

/-! ## Counterexamples -/

/-- C61 is false of the code for the scale offsets of transform constraints: `1` is dropped, and a reader assumes `0`. -/
theorem c61_counterexample_transform : ∃ (d out : Dict (JVal Rat)) (a : Attrs Rat), transformCls.init (.dict d) = .ok a ∧
    transformCls.toJson true (transformCls.setDefaults true a) = .dict out ∧ ReadsAs transform d s!!"scaleX" (.int 1) ∧
    ReadsAs transform out s!!"scaleX" (.int 0) ∧ ¬ Same transform d out s!!"scaleX" := by
  refine ⟨[(s!!"scaleX", .int 1)], _, _, rfl, rfl, .inl rfl, .inr ⟨rfl, by simp [transform]⟩, ?_⟩
  intro h
  obtain ⟨w, h1 | ⟨_, h1⟩, h2⟩ := h (.int 1) (by intro h; cases h) (.inl rfl)
  · exact absurd h1 (by intro h; cases h)
  · simp [transform] at h1; subst h1
    rcases h2 with h2 | h2
    · cases h2
    · revert h2; decide

/-- C61 is false of the code for the spacing of path constraints: `1` is dropped, and a reader assumes `0`. -/
theorem c61_counterexample_spacing : ∃ (d out : Dict (JVal Rat)) (a : Attrs Rat), pathCls.init (.dict d) = .ok a ∧
    pathCls.toJson true (pathCls.setDefaults true a) = .dict out ∧ ReadsAs path d s!!"spacing" (.int 1) ∧
    ReadsAs path out s!!"spacing" (.int 0) ∧ ¬ Same path d out s!!"spacing" := by
  refine ⟨[(s!!"spacing", .int 1)], _, _, rfl, rfl, .inl rfl, .inr ⟨rfl, by simp [path]⟩, ?_⟩
  intro h
  obtain ⟨w, h1 | ⟨_, h1⟩, h2⟩ := h (.int 1) (by intro h; cases h) (.inl rfl)
  · exact absurd h1 (by intro h; cases h)
  · simp [path] at h1; subst h1
    rcases h2 with h2 | h2
    · cases h2
    · revert h2; decide

/-- C61 is false of the code for keyframes of events: `int: 0` is dropped, and a reader takes the value of the event. -/
theorem c61_counterexample_event : ∃ (d out : Dict (JVal Rat)) (a : Attrs Rat), eventTimelineCls.init (.dict d) = .ok a ∧
    eventTimelineCls.toJson true (eventTimelineCls.setDefaults true a) = .dict out ∧
    ¬ Same (eventKeyframe (.int 5) (.int 0) (.str []) (.int 1) (.int 0)) d out s!!"int" := by
  refine ⟨[(s!!"name", .str s!!"step"), (s!!"int", .int 0)], _, _, rfl, rfl, ?_⟩
  intro h
  obtain ⟨w, h1 | ⟨_, h1⟩, h2⟩ := h (.int 0) (by intro h; cases h) (.inl rfl)
  · exact absurd h1 (by intro h; cases h)
  · simp [eventKeyframe] at h1; subst h1
    rcases h2 with h2 | h2
    · cases h2
    · revert h2; decide

/-- a bone that meets the hypotheses: the scale is dropped, the position is kept -/
example : (boneCls, bone, []) ∈ table (F := Rat) ∧ ∃ a, (boneCls (F := Rat)).init (.dict [(s!!"name", .str s!!"hip"), (s!!"x", .int 3), (s!!"scaleX", .int 1)]) = .ok a ∧
    ∃ out, boneCls.toJson true (boneCls.setDefaults true a) = .dict out ∧ Dict.get? out s!!"x" = some (.int 3) ∧ Dict.get? out s!!"scaleX" = none :=
  ⟨by simp [table], _, rfl, _, rfl, rfl, rfl⟩

end Runtime
end Spine
