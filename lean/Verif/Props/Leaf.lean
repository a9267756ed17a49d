import Verif.Lemmas.Leaf
import Verif.Model.Data
import Verif.Props.Version
import Verif.Spec.Concrete
/- Properties C20, C21, C24, C25 (per class), C26, C30, C31: the data classes one by one. -/
namespace Spine
open JVal
set_option linter.unusedSectionVars false
variable {F : Type} [PyRt F]

/-- `dv` is the documented default of attribute `k` -/
def Cls.Default (c : Cls F) (v38 : Bool) (k : Str) (dv : JVal F) : Prop :=
  Dict.get? (if v38 then c.defaults38 else c.defaults) k = some dv

/-! ## C20 -/

/-- C20: for every class, every version family and every object, an attribute is written if and only if it is set to
something different from the default, or it is null where the default is null; values and order are unchanged. -/
theorem c20_writes_exactly_non_defaults (c : Cls F) (v38 : Bool) (a : Attrs F) (hn : (Dict.keys a).Nodup) :
    ∃ e, c.toJson v38 a = .dict e ∧ e.Sublist a ∧ ∀ k v, Dict.get? e k = some v ↔
      (Dict.get? a k = some v ∧
        ((v ≠ .null ∧ ∀ dv, c.Default v38 k dv → pyEq v dv = false) ∨ (v = .null ∧ c.Default v38 k .null))) := by
  refine ⟨_, rfl, List.filter_sublist, ?_⟩
  intro k v
  rw [Cls.get?_filter a (c.emits v38) hn]
  rw [Option.filter_eq_some_iff]
  refine and_congr_right fun _ => ?_
  unfold Cls.emits Cls.Default Cls.defaultsFor
  cases hd : Dict.get? (if v38 = true then c.defaults38 else c.defaults) k with
  | none =>
    cases v <;> simp [isNull]
  | some dv =>
    have key : ((v ≠ .null ∧ ∀ dv', some dv = some dv' → pyEq v dv' = false) ∨ (v = .null ∧ some dv = some .null)) ↔
        ((v ≠ .null ∧ pyEq v dv = false) ∨ (v = .null ∧ dv = .null)) := by
      constructor
      · rintro (⟨h1, h2⟩ | ⟨h1, h2⟩)
        · exact .inl ⟨h1, h2 _ rfl⟩
        · injection h2 with h2; exact .inr ⟨h1, h2⟩
      · rintro (⟨h1, h2⟩ | ⟨h1, h2⟩)
        · exact .inl ⟨h1, fun dv' e => by injection e with e; exact e ▸ h2⟩
        · exact .inr ⟨h1, by rw [h2]⟩
    rw [key]
    clear key
    by_cases h1 : v = .null
    · subst h1
      have := Cls.isNull_iff dv
      simp only [show (JVal.null : JVal F).isNull = true from rfl, if_true, this]
      simp
    · have : v.isNull = false := by
        cases h : v.isNull with
        | false => rfl
        | true => exact absurd ((Cls.isNull_iff v).1 h) h1
      simp [this, h1]

/-- objects of the classes of the library have distinct attribute names -/
theorem c20_applies_to_library (c : Cls F) (hc : c ∈ leafClasses) (v : JVal F) (a : Attrs F) (h : c.init v = .ok a) :
    (Dict.keys a).Nodup ∧ Dict.keys a = c.attrs := by
  have : Dict.keys a = c.attrs := by
    unfold Cls.init at h
    cases hv : c.values v with
    | error e => rw [hv] at h; cases h
    | ok d =>
      rw [hv] at h
      simp only [bind, Except.bind] at h
      split at h
      · cases h
      · injection h with h
        subst h
        simp [Dict.keys, List.map_map, Function.comp_def]
  exact ⟨this ▸ (Cls.leafClasses_ok c hc).nodup, this⟩

/-! ## C21 -/

/-- C21: loading what was serialised and applying the defaults gives, attribute by attribute, the same value or the
default it was equal to (Python `==`) when it was dropped. -/
theorem c21_reload_same_object (c : Cls F) (hc : c ∈ leafClasses) (v38 : Bool) (a : Attrs F)
    (hk : Dict.keys a = c.attrs) (hdef : c.setDefaults v38 a = a)
    (hreq : ∀ k ∈ c.required, ∀ v, Dict.get? a k = some v → v ≠ .null) :
    ∃ b, c.init (c.toJson v38 a) = .ok b ∧ Dict.keys (c.setDefaults v38 b) = Dict.keys a ∧
      ∀ k v, Dict.get? a k = some v → ∃ w, Dict.get? (c.setDefaults v38 b) k = some w ∧ (w = v ∨ pyEq v w = true) := by
  have ok := Cls.leafClasses_ok c hc
  refine ⟨_, Cls.init_toJson ok v38 a hk hreq, ?_, ?_⟩
  · rw [Cls.keys_setDefaults, Cls.keys_map a (Cls.strip c v38)]
  · intro k v hv
    rw [Cls.get?_setDefaults, Cls.get?_map a (Cls.strip c v38), hv]
    refine ⟨_, rfl, ?_⟩
    obtain ⟨_, h2, h3⟩ := Cls.emits_strip_dflt ok v38 k v
    cases he : c.emits v38 k v with
    | true => exact .inl (h2 he)
    | false =>
      rcases h3 he with h | h
      · left
        subst h
        have hfix : Cls.dflt c v38 k .null = .null := by
          have := Cls.get?_setDefaults c v38 a k
          rw [hdef, hv] at this
          simpa using this.symm
        simp only [Cls.strip, he, Bool.false_eq_true, if_false, hfix]
      · exact .inr h

/-- C21: a second serialisation gives exactly the same document, also for objects without defaults applied. -/
theorem c21_second_serialisation (c : Cls F) (hc : c ∈ leafClasses) (v38 : Bool) (a : Attrs F)
    (hk : Dict.keys a = c.attrs) (hreq : ∀ k ∈ c.required, ∀ v, Dict.get? a k = some v → v ≠ .null) :
    ∃ b, c.init (c.toJson v38 a) = .ok b ∧ c.toJson v38 (c.setDefaults v38 b) = c.toJson v38 a := by
  have ok := Cls.leafClasses_ok c hc
  exact ⟨_, Cls.init_toJson ok v38 a hk hreq, Cls.toJson_stable ok v38 a⟩

/-- without its required attributes an object cannot be reloaded -/
theorem c21_required_null_rejected : ∃ (a : Attrs Rat), boneCls.init (.dict [(s!!"name", .null)]) = .ok a ∧
    (match boneCls.init (boneCls.toJson true (boneCls.setDefaults true a)) with
      | .error (.missingRequired l) => l = [s!!"name"]
      | _ => False) := ⟨_, rfl, rfl⟩

/-- the hypotheses of C21 are met by a loaded bone -/
example : ∃ (a : Attrs Rat), boneCls.init (.dict [(s!!"name", .str s!!"hip"), (s!!"x", .int 3)]) = .ok a ∧
    Dict.keys (boneCls.setDefaults true a) = (boneCls (F := Rat)).attrs ∧
    Dict.get? (boneCls.setDefaults true a) s!!"name" = some (.str s!!"hip") ∧
    Dict.get? (boneCls.setDefaults true a) s!!"x" = some (.int 3) ∧
    Dict.get? (boneCls.setDefaults true a) s!!"scaleX" = some (.flt 1) := ⟨_, rfl, rfl, rfl, rfl, rfl⟩

/-! ## C24 and C25 for one object -/

/-- C24 (per class): an object with an unknown attribute is rejected with exactly the list of these attributes. -/
theorem c24_unknown_attribute_rejected (c : Cls F) (d : Dict (JVal F)) (h : ∃ k ∈ Dict.keys d, k ∉ c.attrs) :
    ∃ l, c.init (.dict d) = .error (.unsupportedAttrs l) ∧ ∀ k, k ∈ l ↔ k ∈ Dict.keys d ∧ k ∉ c.attrs := by
  refine ⟨(Dict.keys d).filter (fun k => k ∉ c.attrs), ?_, ?_⟩
  · unfold Cls.init Cls.check
    rw [Cls.values_dict]
    have : (Dict.keys d).filter (fun k => k ∉ c.attrs) ≠ [] := by
      obtain ⟨k, h1, h2⟩ := h
      exact List.ne_nil_of_mem (List.mem_filter.2 ⟨h1, by simpa using h2⟩)
    simp only [bind, Except.bind, this, ne_eq, not_false_eq_true, if_true]
  · intro k; simp

/-- C24 (per class): if an object is accepted, every attribute of the document was understood and stored. -/
theorem c24_nothing_dropped (c : Cls F) (d : Dict (JVal F)) (a : Attrs F) (h : c.init (.dict d) = .ok a) :
    ∀ k v, Dict.get? d k = some v → Dict.get? a k = some v := by
  unfold Cls.init at h
  rw [Cls.values_dict] at h
  simp only [bind, Except.bind] at h
  split at h
  · cases h
  · rename_i hchk
    injection h with h
    intro k v hv
    have hk : k ∈ c.attrs := (Cls.check_iff.1 hchk).1 k (Dict.mem_keys_of_get? hv)
    subst h
    have : ∀ l : List Str, k ∈ l → Dict.get? (l.map (fun k => (k, (Dict.get? d k).getD .null))) k = some v := by
      intro l
      induction l with
      | nil => simp
      | cons x r ih =>
        intro hm
        simp only [List.map_cons, Dict.get?]
        split
        · rename_i e; subst e; simp [hv]
        · rename_i e
          rcases List.mem_cons.1 hm with h | h
          · exact absurd h.symm e
          · exact ih h
    exact this _ hk

/-- C25 (per class): a missing required attribute is reported, naming exactly the missing ones. -/
theorem c25_missing_required_rejected (c : Cls F) (d : Dict (JVal F)) (hk : ∀ k ∈ Dict.keys d, k ∈ c.attrs)
    (h : ∃ k ∈ c.required, k ∉ Dict.keys d) :
    ∃ l, c.init (.dict d) = .error (.missingRequired l) ∧ ∀ k, k ∈ l ↔ k ∈ c.required ∧ k ∉ Dict.keys d := by
  refine ⟨c.required.filter (fun k => k ∉ Dict.keys d), ?_, ?_⟩
  · unfold Cls.init Cls.check
    rw [Cls.values_dict]
    have e : (Dict.keys d).filter (fun k => k ∉ c.attrs) = [] := by
      rw [List.filter_eq_nil_iff]; intro k h; simpa using hk k h
    have : c.required.filter (fun k => k ∉ Dict.keys d) ≠ [] := by
      obtain ⟨k, h1, h2⟩ := h
      exact List.ne_nil_of_mem (List.mem_filter.2 ⟨h1, by simpa using h2⟩)
    simp only [bind, Except.bind, e, this, ne_eq, not_true_eq_false, not_false_eq_true, if_true, if_false]
  · intro k; simp

/-- C25: which classes require what -/
theorem c25_required_table : (boneCls (F := F)).required = [s!!"name"] ∧ (slotCls (F := F)).required = [s!!"name", s!!"bone"] ∧
    (offsetCls (F := F)).required = [s!!"offset"] := ⟨rfl, rfl, rfl⟩

example : (slotCls (F := Rat)).init (.dict [(s!!"name", .str s!!"a")]) = .error (.missingRequired [s!!"bone"]) := rfl
example : (slotCls (F := Rat)).init (.dict [(s!!"name", .str s!!"a"), (s!!"zz", .null)]) = .error (.unsupportedAttrs [s!!"zz"]) := rfl

/-! ## C26 -/

/-- C26: an attachment is accepted only if its type is absent, mesh, linkedmesh or path, and it gets the matching class. -/
theorem c26_type_dispatch (v : JVal F) (a : Att F) (h : Att.init v = .ok a) : ∃ d, v = .dict d ∧
    (((Dict.get? d s!!"type" = none ∨ Dict.get? d s!!"type" = some .null) ∧ a.kind = .region) ∨
     (Dict.get? d s!!"type" = some (.str s!!"mesh") ∧ a.kind = .mesh) ∨
     (Dict.get? d s!!"type" = some (.str s!!"linkedmesh") ∧ a.kind = .linked) ∨
     (Dict.get? d s!!"type" = some (.str s!!"path") ∧ a.kind = .path)) := by
  cases v with
  | dict d =>
    refine ⟨d, rfl, ?_⟩
    simp only [Att.init, bind, Except.bind] at h
    cases hk : Att.kindOf d with
    | error e => rw [hk] at h; cases h
    | ok k =>
      rw [hk] at h
      simp only at h
      cases ha : (AttKind.cls k : Cls F).init (.dict d) with
      | error e => rw [ha] at h; cases h
      | ok at' =>
        rw [ha] at h
        simp only at h
        split at h
        · injection h with h
          subst h
          simp only
          have known : ∀ x ∈ Dict.keys d, x ∈ (AttKind.cls k : Cls F).attrs := by
            intro x hx
            by_cases hm : x ∈ (AttKind.cls k : Cls F).attrs
            · exact hm
            · obtain ⟨l, e, _⟩ := c24_unknown_attribute_rejected (AttKind.cls k : Cls F) d ⟨x, hx, hm⟩
              rw [e] at ha; cases ha
          unfold Att.kindOf at hk
          split at hk
          · rename_i e; injection hk with hk; subst hk; exact .inl ⟨.inl e, rfl⟩
          · rename_i e; injection hk with hk; subst hk; exact .inl ⟨.inr e, rfl⟩
          · rename_i t e
            have ht := known s!!"type" (Dict.mem_keys_of_get? e)
            split at hk
            · rename_i e'; subst e'; injection hk with hk; subst hk; exact .inr (.inr (.inr ⟨e, rfl⟩))
            · split at hk
              · rename_i e'; subst e'; injection hk with hk; subst hk; exact .inr (.inl ⟨e, rfl⟩)
              · split at hk
                · rename_i e'; subst e'; injection hk with hk; subst hk; exact .inr (.inr (.inl ⟨e, rfl⟩))
                · split at hk
                  · injection hk with hk; subst hk
                    simp [AttKind.cls, pointCls] at ht
                  · split at hk
                    · injection hk with hk; subst hk
                      simp [AttKind.cls, clippingCls] at ht
                    · split at hk
                      · injection hk with hk; subst hk
                        simp [AttKind.cls, boundingBoxCls] at ht
                      · cases hk
          · cases hk
        · cases h
  | null => cases h
  | bool b => cases h
  | int i => cases h
  | flt f => cases h
  | str s => cases h
  | list l => cases h

/-- the types the library lists as supported (skin.py 17-25), "slot" aside -/
def listedTypes : List Str := [s!!"mesh", s!!"path", s!!"point", s!!"clipping", s!!"boundingbox", s!!"region"]

/-- the second half of C26: every listed type is accepted with its own attributes -/
def C26accepts (F : Type) [PyRt F] : Prop := ∀ t ∈ listedTypes, ∃ a : Att F, Att.init (.dict [(s!!"type", .str t)]) = .ok a

/-- C26, second half, is false: point, clipping, boundingbox and region attachments are rejected whatever they contain. -/
theorem c26_listed_types_rejected (d : Dict (JVal F)) (t : Str) (ht : t ∈ [s!!"point", s!!"clipping", s!!"boundingbox", s!!"region"])
    (hd : Dict.get? d s!!"type" = some (.str t)) (a : Att F) : Att.init (.dict d) ≠ .ok a := by
  intro h
  obtain ⟨d', e, h'⟩ := c26_type_dispatch _ _ h
  injection e with e
  subst e
  rw [hd] at h'
  simp only [List.mem_cons, List.not_mem_nil, or_false] at ht
  rcases h' with ⟨h' | h', _⟩ | ⟨h', _⟩ | ⟨h', _⟩ | ⟨h', _⟩
  · cases h'
  · cases h'
  all_goals
    injection h' with h'
    injection h' with h'
    subst h'
    revert ht
    decide

theorem c26_counterexample : ¬ C26accepts F := by
  intro h
  obtain ⟨a, ha⟩ := h s!!"point" (by decide)
  exact c26_listed_types_rejected _ s!!"point" (by simp) (by rfl) a ha

/-- C26, what is accepted: absent type, mesh, linkedmesh and path with known attributes and textual name and path.
Missing (and false): point, clipping, boundingbox, region. -/
theorem c26_accepted_partial (d : Dict (JVal F)) (k : AttKind)
    (hk : (k = .region ∧ Dict.get? d s!!"type" = none) ∨ (k = .mesh ∧ Dict.get? d s!!"type" = some (.str s!!"mesh")) ∨
      (k = .linked ∧ Dict.get? d s!!"type" = some (.str s!!"linkedmesh")) ∨
      (k = .path ∧ Dict.get? d s!!"type" = some (.str s!!"path")))
    (hd : ∀ x ∈ Dict.keys d, x ∈ (AttKind.cls k : Cls F).attrs)
    (hs : ∀ x ∈ [s!!"name", s!!"path"], ∀ v, Dict.get? d x = some v → v = .null ∨ ∃ s, v = .str s) :
    ∃ a, Att.init (.dict d) = .ok a ∧ a.kind = k := by
  have hkind : Att.kindOf d = .ok k := by
    rcases hk with ⟨rfl, h⟩ | ⟨rfl, h⟩ | ⟨rfl, h⟩ | ⟨rfl, h⟩ <;> unfold Att.kindOf <;> rw [h] <;> rfl
  have hreq : (AttKind.cls k : Cls F).required = [] := by cases k <;> rfl
  have hinit : (AttKind.cls k : Cls F).init (.dict d) =
      .ok ((AttKind.cls k : Cls F).attrs.map (fun k => (k, (Dict.get? d k).getD .null))) := by
    unfold Cls.init
    rw [Cls.values_dict]
    simp only [bind, Except.bind]
    rw [Cls.check_ok hd (by rw [hreq]; simp)]
    rfl
  refine ⟨⟨k, (AttKind.cls k : Cls F).attrs.map (fun k => (k, (Dict.get? d k).getD .null))⟩, ?_, rfl⟩
  · simp only [Att.init, bind, Except.bind, hkind, hinit]
    rw [if_pos]
    · rfl
    · unfold Att.typed
      rw [List.all_eq_true]
      intro x hx
      have look : ∀ l : List Str, Dict.get? (l.map (fun k => (k, (Dict.get? d k).getD JVal.null))) x = none ∨
          Dict.get? (l.map (fun k => (k, (Dict.get? d k).getD JVal.null))) x = some ((Dict.get? d x).getD .null) := by
        intro l
        induction l with
        | nil => exact .inl rfl
        | cons y r ih =>
          simp only [List.map_cons, Dict.get?]
          split
          · rename_i e; subst e; exact .inr rfl
          · exact ih
      rcases look (AttKind.cls k : Cls F).attrs with h | h
      · rw [h]
      · rw [h]
        cases hg : Dict.get? d x with
        | none => simp
        | some v =>
          rcases hs x hx v hg with h | ⟨s, h⟩ <;> subst h <;> simp

example : ∃ a : Att Rat, Att.init (.dict [(s!!"type", .str s!!"mesh"), (s!!"width", .int 3)]) = .ok a ∧ a.kind = .mesh :=
  ⟨_, rfl, rfl⟩
example : Att.init (F := Rat) (.dict [(s!!"type", .str s!!"region")]) = .error .value := rfl

/-! ## C30 -/

/-- the full statement of C30 for one object: the listed attributes are cleared exactly for versions older than 3.8 -/
def C30 (F : Type) [PyRt F] : Prop := ∀ (c : Cls F) (v : Version) (a : Attrs F),
  (Version.LexLt v Version.v38 → c.removeUnsupported v a =
    a.map (fun p => if p.1 ∈ c.unsupportedOld then (p.1, .null) else p)) ∧
  (¬ Version.LexLt v Version.v38 → c.removeUnsupported v a = a)

/-- C30 is false: for version 3.7.94 nothing is cleared. -/
theorem c30_counterexample : ∃ v, Version.mk? Rat s!!"3.7.94" = .ok v ∧ Version.LexLt v Version.v38 ∧
    ∃ a : Attrs Rat, Dict.get? (slotKeyframeCls.removeUnsupported v a) s!!"c2" = some (.int 1) ∧
      s!!"c2" ∈ (slotKeyframeCls (F := Rat)).unsupportedOld :=
  ⟨⟨s!!"3.7.94", 3, 7, 94⟩, by decide +kernel, by unfold Version.LexLt Version.v38; simp,
    [(s!!"c2", .int 1)], by rfl, by decide⟩

theorem c30_false : ¬ C30 Rat := by
  intro h
  have := (h slotKeyframeCls ⟨s!!"3.7.94", 3, 7, 94⟩ [(s!!"c2", .int 1)]).1 (by unfold Version.LexLt Version.v38; simp)
  have h2 : Dict.get? (slotKeyframeCls.removeUnsupported ⟨s!!"3.7.94", 3, 7, 94⟩ [(s!!"c2", JVal.int (F := Rat) 1)]) s!!"c2" =
      some (.int 1) := rfl
  rw [this] at h2
  cases h2

/-- C30, what the code does: attributes are cleared iff all three components are smaller than those of 3.8.0; then
exactly the listed ones are cleared.  Missing (and false): clearing for 3.7 and for every version without a negative patch. -/
theorem c30_exact_partial (c : Cls F) (v : Version) (a : Attrs F) :
    (v.major < 3 ∧ v.minor < 8 ∧ v.patch < 0 → c.removeUnsupported v a =
      a.map (fun p => if p.1 ∈ c.unsupportedOld then (p.1, .null) else p)) ∧
    (¬ (v.major < 3 ∧ v.minor < 8 ∧ v.patch < 0) → c.removeUnsupported v a = a) := by
  have e : Version.lt v Version.v38 = true ↔ v.major < 3 ∧ v.minor < 8 ∧ v.patch < 0 := by
    simp only [Version.lt, Bool.and_eq_true, decide_eq_true_eq, and_assoc]
    exact Iff.rfl
  constructor
  · intro h
    unfold Cls.removeUnsupported
    simp only [e.2 h, true_and]
  · intro h
    unfold Cls.removeUnsupported
    have : ¬ Version.lt v Version.v38 = true := fun h' => h (e.1 h')
    simp [this]

/-- C30, the half that holds: newer documents are never changed. -/
theorem c30_newer_untouched_partial (c : Cls F) (v : Version) (a : Attrs F) (h : ¬ Version.LexLt v Version.v38) :
    c.removeUnsupported v a = a := by
  refine (c30_exact_partial c v a).2 ?_
  intro h'
  exact h (by unfold Version.LexLt Version.v38; simp only; omega)

/-! ## C31 -/

/-- the full statement of C31 -/
def C31 : Prop := ∀ v : Version, v.is38 = true ↔ Version.LexLe Version.v38 v

/-- C31 is false: version 4.0 gets the old defaults, so the time of a keyframe stays null. -/
theorem c31_counterexample : ¬ C31 := by
  intro h
  have := (h ⟨s!!"4.0", 4, 0, 0⟩).2 (by unfold Version.LexLe Version.LexLt Version.v38; simp)
  revert this
  decide

theorem c31_counterexample_observed : ∃ v a, Version.mk? Rat s!!"4.0" = .ok v ∧
    (slotKeyframeCls (F := Rat)).init (.dict [(s!!"name", .str s!!"x")]) = .ok a ∧
    Dict.get? (slotKeyframeCls.setDefaults v.is38 a) s!!"time" = some .null ∧
    Dict.get? (slotKeyframeCls.setDefaults true a) s!!"time" = some (.int 0) :=
  ⟨⟨s!!"4.0", 4, 0, 0⟩, _, by decide +kernel, rfl, rfl, rfl⟩

/-- C31, what the code does, for every version: the 3.8 defaults need all three components to be at least those of
3.8.0; in that case the version is 3.8 or newer, and for major version 3 the switch is exactly at 3.8.
Missing (and false): versions such as 4.0 to 4.7, which get the old defaults. -/
theorem c31_exact_partial (v : Version) :
    (v.is38 = true ↔ 3 ≤ v.major ∧ 8 ≤ v.minor ∧ 0 ≤ v.patch) ∧
    (v.is38 = true → Version.LexLe Version.v38 v) ∧
    (v.major = 3 → 0 ≤ v.patch → (v.is38 = true ↔ Version.LexLe Version.v38 v)) := by
  have e : v.is38 = true ↔ 3 ≤ v.major ∧ 8 ≤ v.minor ∧ 0 ≤ v.patch := by
    simp only [Version.is38, Version.ge, Bool.and_eq_true, decide_eq_true_eq, and_assoc]
    exact Iff.rfl
  have l : Version.LexLe Version.v38 v ↔
      ((3 : Int) < v.major ∨ (3 = v.major ∧ ((8 : Int) < v.minor ∨ (8 = v.minor ∧ 0 < v.patch)))) ∨
        (3 = v.major ∧ 8 = v.minor ∧ 0 = v.patch) := Iff.rfl
  rw [e, l]
  refine ⟨Iff.rfl, ?_, ?_⟩ <;> omega

/-- C31: the flag decides which defaults a loaded object gets, attribute by attribute. -/
theorem c31_defaults_used_partial (c : Cls F) (v : Version) (a : Attrs F) (k : Str) (w : JVal F)
    (h : Dict.get? (c.setDefaults v.is38 a) k = some w) :
    ∃ u, Dict.get? a k = some u ∧ ((u ≠ .null ∧ w = u) ∨
      (u = .null ∧ w = (Dict.get? (if v.is38 then c.defaults38 else c.defaults) k).getD .null)) := by
  rw [Cls.get?_setDefaults] at h
  obtain ⟨u, hu, e⟩ := Option.map_eq_some_iff.1 h
  refine ⟨u, hu, ?_⟩
  subst e
  cases u <;> simp [Cls.dflt, Cls.defaultsFor]

example : (⟨s!!"3.8.99", 3, 8, 99⟩ : Version).is38 = true := by decide
example : (⟨s!!"3.7.94", 3, 7, 94⟩ : Version).is38 = false := by decide

end Spine
