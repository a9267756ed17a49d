import Verif.Lemmas.PlacesAll
import Verif.Props.Images
import Verif.Props.Leaf
import Verif.Spec.Sample
/-
C24–C26 for whole documents.  The places of the objects and their attributes are those of Spec/Places.lean.
-/
set_option linter.unusedSectionVars false
set_option synthInstance.maxHeartbeats 200000
set_option synthInstance.maxSize 1000
namespace Spine
open JVal Places
variable {F : Type} [PyRt F]
namespace Editor
variable {doc doc' : JVal F} {e : Editor F} {p : List Step × Kind}

theorem load_error {x : Err} (h : SpineDoc.load doc = .error x) : load doc = .error x := by unfold load; rw [h]

theorem load_object (h : load doc = .ok e) (hp : p ∈ places) {w : JVal F} (hr : Reach p.1 doc w) : parser p.2 w = .ok () := by
  obtain ⟨u, hu⟩ := (load_runs p hp).sound (load_ok h).1 hr
  exact hu

/-! ## C24 -/

/-- C24: when a document loads, every attribute of every object at any of the places is one its class supports. -/
theorem c24_document (h : load doc = .ok e) (hp : p ∈ places) {d : Dict (JVal F)} (hr : Reach p.1 doc (.dict d)) :
    ∀ k ∈ Dict.keys d, k ∈ allowed p.2 d := by
  have hu := load_object h hp hr
  by_cases hk : p.2 = .attachment
  · rw [hk] at hu ⊢; exact att_keys hu
  · exact ((kind_ok p.2 hk d).1 d () hu).1

/-- C24: a document that loads stops loading when one unsupported attribute is added to one object, with the exception that
names exactly this attribute.  (A type makes an attachment another kind of object; see C26.) -/
theorem c24_rejected (h : load doc' = .ok e) (hp : p ∈ places) {d1 d2 : Dict (JVal F)} {k : Str} {v : JVal F}
    (hr : Replace p.1 doc' doc (.dict (d1 ++ d2)) (.dict (d1 ++ (k, v) :: d2))) (hk : k ∉ allowed p.2 (d1 ++ d2))
    (ht : p.2 = .attachment → k ≠ s!!"type") : load doc = .error (.unsupportedAttrs [k]) := by
  have hu := load_object h hp hr.reach
  refine load_error ((load_runs p hp).carry (load_ok h).1 hr ?_)
  by_cases ha : p.2 = .attachment
  · rw [ha] at hu hk ⊢; exact att_insert hu v hk (ht ha)
  · exact (kind_ok p.2 ha (d1 ++ d2)).2.1 d1 d2 () k v hu hk

/-! ## C25 -/

/-- C25: when a document loads, no object lacks a required attribute. -/
theorem c25_document (h : load doc = .ok e) (hp : p ∈ places) {d : Dict (JVal F)} (hr : Reach p.1 doc (.dict d)) :
    ∀ k ∈ required p.2, k ∈ Dict.keys d := by
  have hu := load_object h hp hr
  by_cases hk : p.2 = .attachment
  · rw [hk]; intro k hk; cases hk
  · exact ((kind_ok p.2 hk d).1 d () hu).2

/-- C25: a document that loads stops loading when a required attribute is taken from one object, with the exception that names
exactly this attribute. -/
theorem c25_rejected (h : load doc' = .ok e) (hp : p ∈ places) {d1 d2 : Dict (JVal F)} {k : Str} {v : JVal F}
    (hr : Replace p.1 doc' doc (.dict (d1 ++ (k, v) :: d2)) (.dict (d1 ++ d2))) (hk : k ∈ required p.2)
    (h1 : k ∉ Dict.keys d1) (h2 : k ∉ Dict.keys d2) : load doc = .error (.missingRequired [k]) := by
  have hu := load_object h hp hr.reach
  refine load_error ((load_runs p hp).carry (load_ok h).1 hr ?_)
  have hr0 : required p.2 ≠ [] := List.ne_nil_of_mem hk
  by_cases ha : p.2 = .attachment
  · rw [ha] at hr0; exact absurd rfl hr0
  · exact (kind_ok p.2 ha []).2.2 hr0 d1 d2 () k v hu hk h1 h2

/-- the objects that must have attributes -/
theorem c25_required (k : Str) : (∃ p ∈ places, k ∈ required p.2) ↔ k ∈ [s!!"name", s!!"bone", s!!"offset"] := by
  constructor
  · rintro ⟨p, hp, hk⟩
    have : ∀ p ∈ places, ∀ k ∈ required p.2, k ∈ [s!!"name", s!!"bone", s!!"offset"] := by decide
    exact this p hp k hk
  · intro hk
    simp only [List.mem_cons, List.not_mem_nil, or_false] at hk
    rcases hk with rfl | rfl | rfl
    · exact ⟨([.key s!!"bones", .elem], .bone), by simp [places], by decide⟩
    · exact ⟨([.key s!!"slots", .elem], .slot), by simp [places], by decide⟩
    · exact ⟨([.key s!!"animations", .any, .key s!!"drawOrder", .elem, .key s!!"offsets", .elem], .offset), by simp [places], by decide⟩

/-! ## C26 -/

/-- C26, first half: when a document loads, the type of every attachment is absent, null, mesh, linkedmesh or path. -/
theorem c26_document (h : load doc = .ok e) {w : JVal F}
    (hr : Reach [.key s!!"skins", .elem, .key s!!"attachments", .any, .any] doc w) : ∃ d, w = .dict d ∧
    (Dict.get? d s!!"type" = none ∨ Dict.get? d s!!"type" = some .null ∨
     ∃ t ∈ [s!!"mesh", s!!"linkedmesh", s!!"path"], Dict.get? d s!!"type" = some (.str t)) := by
  have hu := load_object (p := ([.key s!!"skins", .elem, .key s!!"attachments", .any, .any], .attachment)) h (by simp [places]) hr
  obtain ⟨a, ha⟩ := outcomeOf_ok.1 hu
  obtain ⟨d, e1, h1⟩ := c26_type_dispatch _ _ ha
  refine ⟨d, e1, ?_⟩
  rcases h1 with ⟨h1 | h1, _⟩ | ⟨h1, _⟩ | ⟨h1, _⟩ | ⟨h1, _⟩
  · exact .inl h1
  · exact .inr (.inl h1)
  · exact .inr (.inr ⟨_, by simp, h1⟩)
  · exact .inr (.inr ⟨_, by simp, h1⟩)
  · exact .inr (.inr ⟨_, by simp, h1⟩)

/-! ## Cases that meet the hypotheses -/
section examples
open Sample

/-- a keyframe of the example document, with and without an attribute `foo` -/
def withKey (more : List (String × J)) : J := Sample.doc [root] [slot "s" "root"] [("default", obj [("s", obj [("a", region "i")])])]
  [("walk", obj [("slots", obj [("s", obj [("attachment", .list [obj ([("name", txt "a")] ++ more)])])])])]

example : Replace [.key s!!"animations", .any, .key s!!"slots", .any, .key s!!"attachment", .elem] (withKey []) (withKey [("foo", .null)])
    (.dict ([(s!!"name", txt "a")] ++ [])) (.dict ([(s!!"name", txt "a")] ++ (s!!"foo", .null) :: [])) := by
  refine .key (d1 := [(s!!"skeleton", obj [("spine", txt "3.8.75")]), (s!!"bones", .list [root]), (s!!"slots", .list [slot "s" "root"]),
    (s!!"skins", .list [obj [("name", txt "default"), ("attachments", obj [("s", obj [("a", region "i")])])]])]) (d2 := []) (by decide) ?_
  refine .any (d1 := []) (d2 := []) ?_
  refine .key (d1 := []) (d2 := []) (by decide) ?_
  refine .any (d1 := []) (d2 := []) ?_
  refine .key (d1 := []) (d2 := []) (by decide) ?_
  exact .elem (l1 := []) (l2 := []) (.here _ _)

example : ((Sample.load (withKey [])).isSome, (Editor.load (withKey [("foo", .null)])).map (fun _ => ())) =
    (true, .error (.unsupportedAttrs [s!!"foo"])) := by decide +kernel

/-- Where a list is expected an object is read as the list of its keys: the empty key stands for an empty path constraint,
and its attributes, understood or not, are dropped without notice.  (The places of Spec/Places.lean are elements of lists.) -/
theorem c24_odd_shape : (Sample.load (.dict (match Sample.doc [root] [slot "s" "root"] [] [] with
      | .dict d => d ++ [(s!!"path", obj [("", obj [("foo", .int 1)])])]
      | _ => []))).map (fun e => e.data.path.length) = some 1 := by decide +kernel

end examples
end Editor
end Spine
