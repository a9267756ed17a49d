import Verif.Lemmas.TraversePaths
import Verif.Spec.Sample
/-
C66: the operations on a whole document treat every object inside it like the object alone.
-/
set_option linter.unusedSectionVars false
namespace Spine
open JVal
variable {F : Type} [PyRt F]

/-- what `to_json` writes of an attribute: a null only when the default is null, anything else when it differs from the
default -/
def Written (v : Version) (c : Cls F) (k : Str) (x : SVal F) : Prop :=
  (x = .null ∧ Dict.get? (if v.is38 then c.defaults38 else c.defaults) k = some .null) ∨
  (x ≠ .null ∧ ∀ d, Dict.get? (if v.is38 then c.defaults38 else c.defaults) k = some d → ¬ ∃ y, x = SVal.ofJ y ∧ pyEq y d = true)

mutual
theorem SVal.plain_some : ∀ {x : SVal F} {y : JVal F}, x.plain = some y → x = SVal.ofJ y
  | .null, y, h => by cases h; rfl
  | .bool _, y, h => by cases h; rfl
  | .int _, y, h => by cases h; rfl
  | .flt _, y, h => by cases h; rfl
  | .str _, y, h => by cases h; rfl
  | .obj _ _, y, h => by cases h
  | .other, y, h => by cases h
  | .list l, y, h => by
    simp only [SVal.plain, Option.map_eq_some_iff] at h
    obtain ⟨s, hs, rfl⟩ := h
    rw [SVal.plains_some hs]; rfl
  | .dict d, y, h => by
    simp only [SVal.plain, Option.map_eq_some_iff] at h
    obtain ⟨s, hs, rfl⟩ := h
    rw [SVal.plaind_some hs]; rfl
theorem SVal.plains_some : ∀ {x : List (SVal F)} {y : List (JVal F)}, SVal.plains x = some y → x = SVal.ofJs y
  | [], y, h => by cases h; rfl
  | v :: r, y, h => by
    simp only [SVal.plains] at h
    cases hv : v.plain with
    | none => simp [hv] at h
    | some w =>
      cases hr : SVal.plains r with
      | none => simp [hv, hr] at h
      | some s =>
        simp only [hv, hr, Option.some.injEq] at h
        subst h
        rw [SVal.plain_some hv, SVal.plains_some hr]; rfl
theorem SVal.plaind_some : ∀ {x : List (Str × SVal F)} {y : List (Str × JVal F)}, SVal.plaind x = some y → x = SVal.ofJd y
  | [], y, h => by cases h; rfl
  | (k, v) :: r, y, h => by
    simp only [SVal.plaind] at h
    cases hv : v.plain with
    | none => simp [hv] at h
    | some w =>
      cases hr : SVal.plaind r with
      | none => simp [hv, hr] at h
      | some s =>
        simp only [hv, hr, Option.some.injEq] at h
        subst h
        rw [SVal.plain_some hv, SVal.plaind_some hr]; rfl
end

theorem written_iff (v : Version) (c : Cls F) (k : Str) (x : SVal F) : SVal.emits c v.is38 k x = true ↔ Written v c k x := by
  unfold SVal.emits Written
  have hn : ∀ d : JVal F, d.isNull = true ↔ d = .null := by intro d; cases d <;> simp [JVal.isNull]
  have hx : x.isNull = true ↔ x = .null := by cases x <;> simp [SVal.isNull]
  have he : ∀ d, SVal.eqJ x d = true ↔ ∃ y, x = SVal.ofJ y ∧ pyEq y d = true := by
    intro d
    unfold SVal.eqJ
    constructor
    · intro h
      cases hp : x.plain with
      | none => simp [hp] at h
      | some y => exact ⟨y, SVal.plain_some hp, by simpa [hp] using h⟩
    · rintro ⟨y, rfl, h⟩
      simpa [SVal.plain_ofJ] using h
  rw [show Cls.defaultsFor c v.is38 = (if v.is38 then c.defaults38 else c.defaults) from rfl]
  cases hd : Dict.get? (if v.is38 then c.defaults38 else c.defaults) k with
  | none =>
    simp only [reduceCtorEq, and_false, false_implies, implies_true, and_true, false_or, Bool.not_eq_true']
    rw [Ne, ← hx]; simp
  | some d =>
    simp only [Option.some.injEq, forall_eq']
    rw [← he d]
    by_cases h : x = .null
    · subst h; simp [SVal.isNull, hn]
    · have : x.isNull = false := by cases hh : x.isNull; rfl; exact absurd (hx.1 hh) h
      simp [this, h]

/-- C66: in the JSON written for a value, every place that is reached through written attributes holds what `to_json` gives
for the value at that place; and the JSON has no other places. -/
theorem c66_to_json (v : Version) (x : SVal F) (j : JVal F) (h : x.toJson v.is38 = .ok j) (p : List Step) :
    (∀ w, SVal.Leads (Written v) x p w → ∃ u, w.toJson v.is38 = .ok u ∧ j.At p u) ∧
    (x.Distinct → ∀ u, j.At p u → ∃ w, SVal.Leads (Written v) x p w ∧ w.toJson v.is38 = .ok u) := by
  have e : (fun c k y => SVal.emits (F := F) c v.is38 k y = true) = Written v := by
    funext c k y; exact propext (written_iff v c k y)
  rw [← e]
  exact ⟨fun w hw => SVal.toJson_leads hw h, fun hd u hu => SVal.toJson_at hu hd h⟩

/-- C66: `to_json` raises exactly when a value of an unsupported type is at a place that would be written, and then it is a
TypeError. -/
theorem c66_to_json_raises (v : Version) (x : SVal F) (hd : x.Distinct) :
    ((∃ p, SVal.Leads (Written v) x p .other) ↔ ∃ e, x.toJson v.is38 = .error e) ∧
    (∀ e, x.toJson v.is38 = .error e → e = .type) := by
  have e : (fun c k y => SVal.emits (F := F) c v.is38 k y = true) = Written v := by
    funext c k y; exact propext (written_iff v c k y)
  rw [← e]
  refine ⟨⟨?_, ?_⟩, fun e h => (SVal.toJson_error hd h).1⟩
  · rintro ⟨p, hp⟩
    cases h : x.toJson v.is38 with
    | error e => exact ⟨e, rfl⟩
    | ok j =>
      obtain ⟨u, hu, _⟩ := SVal.toJson_leads hp h
      cases hu
  · rintro ⟨e, h⟩
    exact (SVal.toJson_error hd h).2

/-- C66: on a document (in any state) `to_json` and `set_default_values` never raise, and do what the classes of the
document do one by one. -/
theorem c66_document (v38 : Bool) (a : AnimData F) :
    a.sval.toJson v38 = .ok (.dict (a.toJson v38)) ∧ a.sval.setDefaults v38 = .ok (a.setDefaults v38).sval :=
  ⟨a.sval_toJson v38, a.sval_setDefaults v38⟩

/-- C66: `set_default_values` at every object of a value: the attributes stay; a null attribute takes the default of its
class and version, if any; any other attribute is treated like the value alone. -/
theorem c66_set_defaults (v : Version) (x x' : SVal F) (h : x.setDefaults v.is38 = .ok x') (p : List Step) (c : Cls F)
    (a : List (Str × SVal F)) (hp : x.At p (.obj c a)) :
    ∃ a', x'.At p (.obj c a') ∧ Dict.keys a' = Dict.keys a ∧ ∀ k y, Dict.get? a k = some y →
      (y = .null → Dict.get? a' k =
        some (SVal.ofJ ((Dict.get? (if v.is38 then c.defaults38 else c.defaults) k).getD .null))) ∧
      (y ≠ .null → ∃ y', y.setDefaults v.is38 = .ok y' ∧ Dict.get? a' k = some y') := by
  obtain ⟨w', h1, h2⟩ := SVal.setDefaults_at hp (by simp) h
  simp only [SVal.setDefaults] at h1
  cases hl : SVal.setDefaultsA v.is38 c a with
  | error e => simp [hl] at h1
  | ok s =>
    simp only [hl, Except.ok.injEq] at h1
    subst h1
    exact ⟨s, h2, (SVal.setDefaultsA_ok hl).1, (SVal.setDefaultsA_ok hl).2⟩

/-- C66: `clean_unsupported_attributes` at every object of a value that is not inside a cleared attribute: the listed
attributes become null when every component of the version is below that of 3.8.0, the others are treated like the value
alone. -/
theorem c66_clean (v : Version) (x x' : SVal F) (h : x.clean v = .ok x') (p : List Step) (c : Cls F)
    (a : List (Str × SVal F))
    (hp : SVal.Leads (fun c k _ => ¬ (v.major < 3 ∧ v.minor < 8 ∧ v.patch < 0 ∧ k ∈ c.unsupportedOld)) x p (.obj c a)) :
    ∃ a', x'.At p (.obj c a') ∧ Dict.keys a' = Dict.keys a ∧ ∀ k y, Dict.get? a k = some y →
      (v.major < 3 ∧ v.minor < 8 ∧ v.patch < 0 ∧ k ∈ c.unsupportedOld → Dict.get? a' k = some .null) ∧
      (¬ (v.major < 3 ∧ v.minor < 8 ∧ v.patch < 0 ∧ k ∈ c.unsupportedOld) →
        ∃ y', y.clean v = .ok y' ∧ Dict.get? a' k = some y') := by
  have e : ∀ (c : Cls F) (k : Str), (v.major < 3 ∧ v.minor < 8 ∧ v.patch < 0 ∧ k ∈ c.unsupportedOld) ↔
      (Version.lt v Version.v38 = true ∧ k ∈ c.unsupportedOld) := by
    intro c k
    simp only [Version.lt, Bool.and_eq_true, decide_eq_true_eq, and_assoc]
    exact Iff.rfl
  simp only [e] at hp ⊢
  obtain ⟨w', h1, h2⟩ := SVal.clean_leads hp h
  simp only [SVal.clean] at h1
  cases hl : SVal.cleanA v c a with
  | error e => simp [hl] at h1
  | ok s =>
    simp only [hl, Except.ok.injEq] at h1
    subst h1
    exact ⟨s, h2, (SVal.cleanA_ok hl).1, (SVal.cleanA_ok hl).2⟩

/-- C66: on a document `clean_unsupported_attributes` never raises, and unless every component of the version is below that
of 3.8.0 (so for every version without a negative component) it changes nothing. -/
theorem c66_clean_document (v : Version) (a : AnimData F) :
    (∃ x, a.sval.clean v = .ok x) ∧ (¬ (v.major < 3 ∧ v.minor < 8 ∧ v.patch < 0) → a.sval.clean v = .ok a.sval) := by
  obtain ⟨x, hx⟩ := SVal.clean_pure v a.sval_pure
  refine ⟨⟨x, hx⟩, fun h => ?_⟩
  have : Version.lt v Version.v38 = false := by
    cases hl : Version.lt v Version.v38 with
    | false => rfl
    | true =>
      simp only [Version.lt, Bool.and_eq_true, decide_eq_true_eq, and_assoc] at hl
      exact absurd hl h
  rw [hx, SVal.clean_id this hx]

/-! ## Cases -/

/-- a slot timeline with one keyframe, inside an animation, inside a document -/
def deepValue : SVal Rat :=
  .obj documentCls [(s!!"skins", .list []), (s!!"animations", .dict [(s!!"walk", .obj animationCls [(s!!"slots",
    .dict [(s!!"hand", .obj slotTimelineCls [(s!!"attachment",
      .list [.obj slotKeyframeCls [(s!!"name", .str s!!"open"), (s!!"time", .null), (s!!"c2", .int 5)]])])])])])]

/-- the place of the keyframe -/
def deepPlace : List Step :=
  [.key s!!"animations", .key s!!"walk", .key s!!"slots", .key s!!"hand", .key s!!"attachment", .item 0]

theorem deepValue_at {P : Cls Rat → Str → SVal Rat → Prop} (h1 : ∀ x r, P documentCls s!!"animations" (.dict (x :: r)))
    (h2 : ∀ x r, P animationCls s!!"slots" (.dict (x :: r)))
    (h3 : ∀ x r, P slotTimelineCls s!!"attachment" (.list (x :: r))) :
    SVal.Leads P deepValue deepPlace
      (.obj slotKeyframeCls [(s!!"name", .str s!!"open"), (s!!"time", .null), (s!!"c2", .int 5)]) :=
  .attr rfl (h1 _ _) (.key rfl (.attr rfl (h2 _ _) (.key rfl (.attr rfl (h3 _ _) (.item rfl (.here _))))))

/-- c66_to_json: the keyframe is written at its place, without the null time; `c2` stays in a 3.8 document -/
example : ∃ j, deepValue.toJson true = .ok j ∧
    j.At deepPlace (.dict [(s!!"name", .str s!!"open"), (s!!"c2", .int 5)]) :=
  ⟨_, rfl, .key rfl (.key rfl (.key rfl (.key rfl (.key rfl (.item rfl (.here _))))))⟩

example : SVal.Leads (Written ⟨s!!"3.8.75", 3, 8, 75⟩) deepValue deepPlace
    (.obj slotKeyframeCls [(s!!"name", .str s!!"open"), (s!!"time", .null), (s!!"c2", .int 5)]) := by
  refine deepValue_at ?_ ?_ ?_ <;> intro x r <;> rw [← written_iff]
  · exact SVal.emits_dict rfl _
  · exact SVal.emits_dict rfl _
  · exact SVal.emits_list rfl _

/-- c66_to_json_raises: a tuple at a place that is written, and one at a place that is not -/
example : SVal.toJson (F := Rat) true (.obj documentCls [(s!!"bones", .list [.other])]) = .error .type := rfl
example : SVal.toJson (F := Rat) true (.list [.dict [], .other]) = .error .type := rfl

/-- c66_set_defaults: the null time of the keyframe becomes 0 -/
example : ∃ x, deepValue.setDefaults true = .ok x ∧
    x.At deepPlace (.obj slotKeyframeCls [(s!!"name", .str s!!"open"), (s!!"time", .int 0), (s!!"c2", .int 5)]) :=
  ⟨_, rfl, .attr rfl trivial (.key rfl (.attr rfl trivial (.key rfl (.attr rfl trivial (.item rfl (.here _))))))⟩

/-- c66_clean: version "2.7.-1" is accepted and is the kind of version for which `c2` is cleared; 3.7.94 is not -/
example : Version.mk? Rat s!!"2.7.-1" = .ok ⟨s!!"2.7.-1", 2, 7, -1⟩ := by decide +kernel
example : ∃ x, deepValue.clean ⟨s!!"2.7.-1", 2, 7, -1⟩ = .ok x ∧
    x.At deepPlace (.obj slotKeyframeCls [(s!!"name", .str s!!"open"), (s!!"time", .null), (s!!"c2", .null)]) :=
  ⟨_, rfl, .attr rfl trivial (.key rfl (.attr rfl trivial (.key rfl (.attr rfl trivial (.item rfl (.here _))))))⟩
example : deepValue.clean ⟨s!!"3.7.94", 3, 7, 94⟩ = .ok deepValue := rfl

/-- c66_document, c66_clean_document: a loaded document -/
example : ((Sample.load Sample.basic).map (fun e => (e.data.bones.length, e.data.animations.length))) = some (2, 2) := by
  decide +kernel

end Spine
