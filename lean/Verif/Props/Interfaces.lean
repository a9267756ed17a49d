import Verif.Model.Interfaces
import Verif.Props.SpineNodes
import Verif.Props.Version
import Verif.Spec.Sample
/-
C72: the graph parser reads what it wrote.  C73: parser classes, node factories and error types are checked.  C74: nodes and versions
compare with everything and can be hashed.  C75: `get` gives the attribute or the default.
-/
set_option linter.unusedSectionVars false
namespace Spine
open Graph SpineNodes JVal
variable {F : Type} [PyRt F]

/-! ## C72 -/

/-- the parts of `create` on a document with these lists -/
theorem create_parts {d : Dict (JVal F)} {bs ss is : List (JVal F)} (hb : Dict.get? d s!!"bones" = some (.list bs))
    (hs : DocEntries d s!!"slots" ss) (hi : DocEntries d s!!"ik" is) :
    create (.dict d) = (foldE (fun g (p : JVal F × Nat) => addBone g p.1 p.2) Graph.empty bs.zipIdx).bind (fun g =>
      (foldE (addSlotAndSkins (.dict d)) g ss.zipIdx).bind (fun g =>
        foldE (fun g (p : JVal F × Nat) => addIk g p.1 p.2) g is.zipIdx)) := by
  have list : ∀ {k : Str} {l : List (JVal F)}, DocEntries d k l → docList (.dict d) k = .ok l := by
    intro k l h
    rcases h with h | ⟨h, rfl⟩ <;> simp [docList, getIter, h, iter]
  have hb' : subscript (.dict d : JVal F) s!!"bones" = .ok (.list bs) := by simp only [subscript, getItem, hb]
  have hit : iter (.list bs : JVal F) = .ok bs := rfl
  unfold create
  rw [hb', list hs, list hi]
  simp only [bind, Except.bind, hit]

/-- a document from which a graph can be built has bones -/
theorem create_bones {d : Dict (JVal F)} {g : SGraph F} (h : create (.dict d) = .ok g) {bs : List (JVal F)}
    (hb : DocEntries d s!!"bones" bs) : Dict.get? d s!!"bones" = some (.list bs) := by
  rcases hb with hb | ⟨hb, rfl⟩
  · exact hb
  · have e : subscript (.dict d : JVal F) s!!"bones" = .error .key := by simp only [subscript, getItem, hb]
    unfold create at h
    rw [e] at h
    cases h

/-- the document that `to_json_data` writes, read again: KeyError as soon as there is a slot, the same graph without slots -/
theorem create_written (d : Dict (JVal F)) (g : SGraph F) (h : create (.dict d) = .ok g) (bs ss is : List (JVal F))
    (hb : DocEntries d s!!"bones" bs) (hs : DocEntries d s!!"slots" ss) (hi : DocEntries d s!!"ik" is) :
    create (GraphJson.toJVal ⟨bs, ss, is⟩) = if ss = [] then .ok g else .error .key := by
  have h' := h
  rw [create_parts (create_bones h hb) hs hi] at h
  unfold GraphJson.toJVal
  rw [create_parts (bs := bs) (ss := ss) (is := is) rfl (.inl rfl) (.inl rfl)]
  obtain ⟨g1, h1, h⟩ := bind_ok_iff'.1 h
  obtain ⟨g2, h2, h⟩ := bind_ok_iff'.1 h
  rw [h1]
  simp only [Except.bind]
  cases ss with
  | nil =>
    have e : g1 = g2 := Except.ok.inj h2
    subst e
    rw [if_pos rfl]
    exact h
  | cons s r =>
    rw [if_neg (by simp)]
    rw [List.zipIdx_cons] at h2
    unfold foldE at h2
    cases ha : addSlotAndSkins (.dict d) g1 (s, 0) with
    | error e => rw [ha] at h2; cases h2
    | ok g3 =>
      unfold addSlotAndSkins at ha
      obtain ⟨⟨g4, sid⟩, h4, -⟩ := bind_ok_iff.1 ha
      have : addSlotAndSkins (.dict [(s!!"slots", .list (s :: r)), (s!!"bones", .list bs), (s!!"ik", .list is)]) g1 (s, 0) =
          .error .key := by
        unfold addSlotAndSkins
        rw [h4]
        rfl
      rw [List.zipIdx_cons]
      unfold foldE
      rw [this]

/-- C72, without slots: the graph parser reads what it wrote as the same graph, in memory and through the text.
Missing: a graph with slots (`c72_counterexample`). -/
theorem c72_no_slots_partial (d : Dict (JVal F)) (g : SGraph F) (h : create (.dict d) = .ok g) (bs is : List (JVal F))
    (hb : DocEntries d s!!"bones" bs) (hs : DocEntries d s!!"slots" []) (hi : DocEntries d s!!"ik" is) :
    ∃ j, toJsonData g = .ok j ∧ create j.toJVal = .ok g := by
  refine ⟨⟨bs, [], is⟩, c16_graph_round_trip d g h bs [] is hb hs hi, ?_⟩
  rw [create_written d g h bs [] is hb hs hi, if_pos rfl]

/-- C72 is false for every graph with a slot: what was written cannot be read (KeyError: there are no skins). -/
theorem c72_slots (d : Dict (JVal F)) (g : SGraph F) (h : create (.dict d) = .ok g) (bs ss is : List (JVal F))
    (hb : DocEntries d s!!"bones" bs) (hs : DocEntries d s!!"slots" ss) (hi : DocEntries d s!!"ik" is) (hne : ss ≠ []) :
    ∃ j, toJsonData g = .ok j ∧ create j.toJVal = .error .key := by
  refine ⟨⟨bs, ss, is⟩, c16_graph_round_trip d g h bs ss is hb hs hi, ?_⟩
  rw [create_written d g h bs ss is hb hs hi, if_neg hne]

/-- C72: with the skins of the document added, what was written is read as the same graph. -/
theorem c72_with_skins_partial (d : Dict (JVal F)) (g : SGraph F) (h : create (.dict d) = .ok g) (bs ss is : List (JVal F)) (sk : JVal F)
    (hb : DocEntries d s!!"bones" bs) (hs : DocEntries d s!!"slots" ss) (hi : DocEntries d s!!"ik" is)
    (hk : Dict.get? d s!!"skins" = some sk) :
    ∃ j : GraphJson F, toJsonData g = .ok j ∧
      create (.dict [(s!!"slots", .list j.slots), (s!!"bones", .list j.bones), (s!!"ik", .list j.ik), (s!!"skins", sk)]) = .ok g := by
  refine ⟨⟨bs, ss, is⟩, c16_graph_round_trip d g h bs ss is hb hs hi, ?_⟩
  have h' := h
  rw [create_parts (create_bones h hb) hs hi] at h
  rw [create_parts (bs := bs) (ss := ss) (is := is) rfl (.inl rfl) (.inl rfl), ← h]
  have : addSlotAndSkins (.dict d) = addSlotAndSkins (F := F)
      (.dict [(s!!"slots", .list ss), (s!!"bones", .list bs), (s!!"ik", .list is), (s!!"skins", sk)]) := by
    have e1 : subscript (.dict d : JVal F) s!!"skins" = .ok sk := by simp only [subscript, getItem, hk]
    have e2 : subscript (.dict [(s!!"slots", .list ss), (s!!"bones", .list bs), (s!!"ik", .list is), (s!!"skins", sk)] : JVal F)
        s!!"skins" = .ok sk := rfl
    funext g p
    unfold addSlotAndSkins
    rw [e1, e2]
  rw [this]

/-- C72: reading a file is reading the value it holds. -/
theorem c72_file {K : Type} [JsonRt K] (fs : Files.FS) (p t : Str) (v : JVal K) (h : fs.read p = .ok t) (hv : JsonText.decode t = .ok v) :
    (ParserArg.derived (spineParser fs)).createFile p = (ParserArg.derived (spineParser fs)).createData v := by
  simp [ParserArg.createFile, ParserArg.createData, callOr, spineParser, SpineNodes.createFromFile, h, hv]


/-! ## C73 -/

variable {G J P S : Type}

/-- C73, as far as it holds: a call with a class that derives from the interface does what the method of the class does, and raises
NotImplementedError if the class does not define it; everything else but the interface itself is rejected with TypeError by all
four calls, and the interface by the two that write.  Missing: the interface passed to the calls that read
(`c73_counterexample`). -/
theorem c73_parsers_partial (c : ParserArg G J P S) (g : G) (d : J) (p : P) :
    (∀ m, c = .derived m →
      ((∀ f, m.toJson = some f → c.toJson g = f g) ∧ (m.toJson = none → c.toJson g = .error .notImplemented)) ∧
      ((∀ f, m.toJsonData = some f → c.toJsonData g = f g) ∧ (m.toJsonData = none → c.toJsonData g = .error .notImplemented)) ∧
      ((∀ f, m.createFile = some f → c.createFile p = f p) ∧ (m.createFile = none → c.createFile p = .error .notImplemented)) ∧
      ((∀ f, m.createData = some f → c.createData d = f d) ∧ (m.createData = none → c.createData d = .error .notImplemented))) ∧
    ((∀ m, c ≠ .derived m) → c.toJson g = .error .type ∧ c.toJsonData g = .error .type ∧
      (c ≠ .interface → c.createFile p = .error .type ∧ c.createData d = .error .type)) := by
  constructor
  · rintro m rfl
    refine ⟨⟨?_, ?_⟩, ⟨?_, ?_⟩, ⟨?_, ?_⟩, ⟨?_, ?_⟩⟩ <;> intros <;>
      simp_all [ParserArg.toJson, ParserArg.toJsonData, ParserArg.createFile, ParserArg.createData, callOr]
  · intro h
    cases c with
    | derived m => exact absurd rfl (h m)
    | interface => exact ⟨rfl, rfl, fun h => absurd rfl h⟩
    | _ => exact ⟨rfl, rfl, fun _ => ⟨rfl, rfl⟩⟩

/-- C73 is false of the code: the interface passed to a call that reads is not rejected with TypeError. -/
theorem c73_counterexample (d : J) (p : P) : (ParserArg.interface : ParserArg G J P S).createFile p = .error .notImplemented ∧
    (ParserArg.interface : ParserArg G J P S).createData d = .error .notImplemented := ⟨rfl, rfl⟩

/-- C73: a graph is made without nodes exactly for a missing factory (then the default one is used) and for factories that derive from
the interface; otherwise TypeError. -/
theorem c73_factory {T D : Type} (dflt : Factory T) (a : FactoryArg T) :
    (∀ fac, a = .derived fac → newGraph (D := D) dflt a = .ok (fac, Graph.empty)) ∧
    (a = .absent → newGraph (D := D) dflt a = .ok (dflt, Graph.empty)) ∧
    ((∀ fac, a ≠ .derived fac) → a ≠ .absent → newGraph (D := D) dflt a = .error .type) := by
  refine ⟨by rintro fac rfl; rfl, by rintro rfl; rfl, ?_⟩
  intro h1 h2
  cases a with
  | absent => exact absurd rfl h2
  | derived fac => exact absurd rfl (h1 fac)
  | _ => rfl

/-- C73: the errors of a graph are collected with known types only: `validate` gives the dictionaries of the errors of C08, C09 and C13. -/
theorem c73_errors {T D : Type} [DecidableEq T] (root : T) (g : Graph T D) :
    validateAdding root g = (validate root g).map (·.map GraphError.asDict) := by
  unfold validateAdding validate
  cases Graph.circular g with
  | error e => rfl
  | ok cs =>
    cases Graph.unconnected root g with
    | error e =>
      simp only [Except.map]
      by_cases h : cs ≠ []
      · simp only [if_pos h, addError]
      · simp only [if_neg h]
    | ok us =>
      simp only [Except.map]
      by_cases h : cs ≠ [] <;> by_cases h' : us ≠ []
      · simp only [if_pos h, if_pos h', addError]; rfl
      · simp only [if_pos h, if_neg h', addError]; rfl
      · simp only [if_neg h, if_pos h', addError]; rfl
      · simp only [if_neg h, if_neg h']; rfl

/-! ## C74 -/

/-- C74, as far as it holds: two nodes of a graph are equal exactly when they are the same node.
Missing: comparison with other objects and hashing (`c74_counterexample`). -/
theorem c74_nodes_partial {T D : Type} [DecidableEq T] (fac : Factory T) (ops : List (Op T D)) (x y : Str) (n m : Node T D)
    (hn : getNode (run fac ops) x = some n) (hm : getNode (run fac ops) y = some m) :
    nodeEq (.str n.id) (.withId (.str m.id)) = .ok true ↔ x = y := by
  have h1 := (wf_run fac ops).id_eq hn
  have h2 := (wf_run fac ops).id_eq hm
  simp [nodeEq, h1, h2]

/-- C74, as far as it holds: a version is equal to a version, or to a string that means one, exactly when the numbers are the same; a string
that means none raises ValueError.  Missing: other objects, and hashing (`c74_counterexample`). -/
theorem c74_versions_partial (v : Version) :
    (∀ w, ∃ b, versionEq F v (.ver w) = .ok b ∧ (b = true ↔ v.major = w.major ∧ v.minor = w.minor ∧ v.patch = w.patch)) ∧
    (∀ s a b c, Version.VersionText F s a b c →
      ∃ r, versionEq F v (.str s) = .ok r ∧ (r = true ↔ v.major = a ∧ v.minor = b ∧ v.patch = c)) ∧
    (∀ s, (∀ a b c, ¬ Version.VersionText F s a b c) → versionEq F v (.str s) = .error .value) := by
  refine ⟨?_, ?_, ?_⟩
  · intro w
    exact ⟨Version.eq v w, rfl, (Version.c29_eq v w).1⟩
  · intro s a b c h
    have : (VersionArg.str s).cast F = .ok ⟨s, a, b, c⟩ := Version.c29_string_argument F s ⟨s, a, b, c⟩ h rfl
    refine ⟨Version.eq v ⟨s, a, b, c⟩, ?_, (Version.c29_eq v ⟨s, a, b, c⟩).1⟩
    unfold versionEq
    rw [this]; rfl
  · intro s h
    have : (VersionArg.str s).cast F = .error .value := by
      rcases Version.c27_else_value_error F s with ⟨w, hw⟩ | hw
      · exact absurd ((Version.c27_accepts_exactly F s w).1 hw).2 (h _ _ _)
      · exact hw
    unfold versionEq
    rw [this]; rfl

/-- C74 is false of the code for every node of every graph and for every version: comparing with an object without id (`None`, say) raises
AttributeError, and hashing raises TypeError. -/
theorem c74_counterexample {T D : Type} (n : Node T D) (v : Version) :
    nodeEq (.str n.id) .noId = .error .attribute ∧ nodeHash (.str n.id) = .error .type ∧
    versionEq F v .other = .error .attribute ∧ versionHash v = .error .type := ⟨rfl, rfl, rfl, rfl⟩

/-! ## C75 -/

theorem get?_map_keys (l : List Str) (f : Str → JVal F) (k : Str) :
    Dict.get? (l.map (fun k => (k, f k))) k = if k ∈ l then some (f k) else none := by
  induction l with
  | nil => rfl
  | cons x r ih =>
    simp only [List.map_cons, Dict.get?, List.mem_cons]
    by_cases h : x = k
    · subst h; simp
    · rw [if_neg h, ih]
      have : ¬ k = x := fun e => h e.symm
      simp [this]

theorem check_known {known required : List Str} {d : Dict (JVal F)} (h : Cls.check known required d = .ok ()) :
    ∀ k ∈ Dict.keys d, k ∈ known := by
  intro k hk
  refine Classical.byContradiction fun hn => ?_
  unfold Cls.check at h
  have : (Dict.keys d).filter (fun k => k ∉ known) ≠ [] := by
    intro e
    have : k ∈ (Dict.keys d).filter (fun k => k ∉ known) := List.mem_filter.2 ⟨hk, by simpa using hn⟩
    rw [e] at this; cases this
  simp only [if_pos this] at h
  cases h

/-- C75: on an object of any class loaded from a document, `get` gives a value exactly for the keys the document has with a value that is not
null, and the default exactly for the other names, provided that these are attributes or no members of the class.
Missing: the other members (`c75_counterexample`). -/
theorem c75_get_partial (c : Cls F) (v : JVal F) (a : Attrs F) (h : c.init v = .ok a) (member : Str → Bool) :
    ∃ d, c.values v = .ok d ∧ ∀ k,
      (∀ w, getAttr member a k = .attr w ↔ Dict.get? d k = some w ∧ w ≠ .null) ∧
      (getAttr member a k = .dflt ↔ (Dict.get? d k = none ∨ Dict.get? d k = some .null) ∧ (k ∈ c.attrs ∨ member k = false)) := by
  unfold Cls.init at h
  obtain ⟨d, hd, h⟩ := bind_ok_iff.1 h
  obtain ⟨_, hc, h⟩ := bind_ok_iff.1 h
  rw [pure_ok_iff] at h
  subst h
  refine ⟨d, hd, ?_⟩
  intro k
  unfold getAttr
  rw [get?_map_keys c.attrs (fun k => (Dict.get? d k).getD .null) k]
  by_cases hk : k ∈ c.attrs
  · rw [if_pos hk]
    cases hg : Dict.get? d k with
    | none => simp [hk]
    | some w =>
      simp only [Option.getD_some]
      constructor
      · intro u
        cases w <;> simp
        all_goals (intro e; subst e; simp)
      · cases w <;> simp [hk]
  · rw [if_neg hk]
    have hg : Dict.get? d k = none := by
      rw [Dict.get?_eq_none_iff]
      exact fun hm => hk (check_known hc k hm)
    rw [hg]
    cases hm : member k <;> simp [hk]

/-- C75 is false of the code: a name of a method or of a constant of the class gives that, whatever the default. -/
theorem c75_counterexample : ∃ (c : Cls F) (v : JVal F) (a : Attrs F), c.init v = .ok a ∧
    ∀ k ∈ baseMembers, (∃ d, c.values v = .ok d ∧ Dict.get? d k = none) ∧ getAttr (fun k => k ∈ baseMembers) a k = .member := by
  refine ⟨slotCls, .dict [(s!!"name", .str s!!"s"), (s!!"bone", .str s!!"b")], _, rfl, ?_⟩
  intro k hk
  have hd : Dict.get? ([(s!!"name", .str s!!"s"), (s!!"bone", .str s!!"b")] : Dict (JVal F)) k = none := by
    rw [Dict.get?_eq_none_iff]
    show k ∉ [s!!"name", s!!"bone"]
    exact (by decide : ∀ k ∈ baseMembers, k ∉ [s!!"name", s!!"bone"]) k hk
  refine ⟨⟨_, rfl, hd⟩, ?_⟩
  unfold getAttr
  rw [get?_map_keys]
  have : k ∉ (slotCls (F := F)).attrs := by
    show k ∉ [s!!"name", s!!"bone", s!!"attachment", s!!"color", s!!"dark", s!!"blend"]
    exact (by decide : ∀ k ∈ baseMembers, k ∉ [s!!"name", s!!"bone", s!!"attachment", s!!"color", s!!"dark", s!!"blend"]) k hk
  rw [if_neg this]
  simp [hk]

/-- C75: an object is made exactly if its class has both constants; otherwise NotImplementedError. -/
theorem c75_new (d d38 : Option (Dict (JVal F))) :
    (newInstance d d38 = .ok () ↔ d ≠ none ∧ d38 ≠ none) ∧ (newInstance d d38 ≠ .ok () → newInstance d d38 = .error .notImplemented) := by
  cases d <;> cases d38 <;> simp [newInstance]

/-! Non-vacuity -/

/-- a document with a bone, an ik and no slots, and one with slots -/
example : (∃ g, create (F := Rat) (.dict [(s!!"bones", .list [Sample.root])]) = .ok g) ∧
    DocEntries [(s!!"bones", .list [Sample.root])] s!!"slots" ([] : List (JVal Rat)) := by
  refine ⟨?_, .inr ⟨rfl, rfl⟩⟩
  exact ⟨_, rfl⟩

example : (create Sample.basic).toOption.isSome = true ∧
    (((create Sample.basic).toOption.bind (fun g => (toJsonData g).toOption)).map (fun j => (create j.toJVal).toOption.isSome)) = some false := by
  decide +kernel

end Spine
