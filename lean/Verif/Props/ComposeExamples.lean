import Verif.Props.Compose
/- Concrete cases of C82–C84, and counterexamples. -/
set_option synthInstance.maxHeartbeats 200000
set_option synthInstance.maxSize 1000
namespace Spine
namespace Editor
namespace ComposeEx
open JVal Sample

def names (l : List String) : NamesArg := .list (l.map String.toList)
def texts (l : List String) : List Str := l.map String.toList
def fine {σ α : Type} (r : Res σ α) : Except Err Unit := r.1.map (fun _ => ())

/-- the attachment "k" is a mesh of the slot "s1" and a region of the slot "s2", which no animation shows -/
def stages : J := Sample.doc [root] [slot "s1" "root" [("attachment", txt "a")], slot "s2" "root"]
  [("default", obj [("s1", obj [("a", region "i"), ("k", mesh "j")]), ("s2", obj [("k", region "l")])]),
   ("red", obj [("s1", obj [("a", region "m")])]), ("blue", obj [("s1", obj [("a", region "n")])])]
  [("walk", obj []), ("b", obj [("slots", obj [("s1", shows "k")])]), ("c", obj [])]

/-- hypotheses of C82, C83 and C84 -/
example : ∃ e, Sample.load stages = some e ∧ Ran e := ran_of (by decide +kernel)

/-- C82 on this document: erasing "b" as well removes "k" from "s1" -/
example : (Sample.load stages).map (fun e =>
    let eA := eraseAnims (names ["c"]) true false e
    let eB := eraseAnims (names ["c", "b"]) true false e
    (fine eA, fine eB, keysOf eA.2, keysOf eB.2)) =
    some (.ok (), .ok (), [[("s1", ["a", "k"])], [("s1", ["a"])], [("s1", ["a"])]], [[("s1", ["a"])], [("s1", ["a"])], [("s1", ["a"])]]) := by
  decide +kernel

/-- C83 on this document, strict: one call or two, the first in safe mode; a name that is not there raises in both -/
example : (Sample.load stages).map (fun e =>
    let one := eraseAnims (names ["c", "b"]) true false e
    let two := eraseAnims (names ["b"]) true false (eraseAnims (names ["c"]) true true e).2
    (fine one, fine two, keysOf one.2, keysOf two.2, fine (eraseAnims (names ["c", "zz"]) true true e),
      fine (eraseAnims (names ["zz"]) true true (eraseAnims (names ["c"]) true true e).2))) =
    some (.ok (), .ok (), [[("s1", ["a"])], [("s1", ["a"])], [("s1", ["a"])]], [[("s1", ["a"])], [("s1", ["a"])], [("s1", ["a"])]],
      .error .value, .error .value) := by
  decide +kernel

/-- C83 for skins on this document -/
example : (Sample.load stages).map (fun e =>
    let one := eraseSkins (texts ["red", "blue"]) false e
    let first := eraseSkins (texts ["red"]) true e
    let two := eraseSkins (texts ["blue"]) false first.2
    (fine first, fine one, fine two, keysOf one.2, keysOf two.2)) =
    some (.ok (), .ok (), .ok (), [[("s1", ["a", "k"])]], [[("s1", ["a", "k"])]]) := by
  decide +kernel

/-- C84 on this document -/
example : (Sample.load stages).map (fun e =>
    let p := eraseSkins (texts ["red"]) true (eraseAnims (names ["b"]) true true e).2
    let q := eraseAnims (names ["b"]) true true (eraseSkins (texts ["red"]) true e).2
    (fine p, fine q, keysOf p.2, keysOf q.2, p.2.data.animations.map (fun x => String.ofList x.1), q.2.data.animations.map (fun x => String.ofList x.1))) =
    some (.ok (), .ok (), [[("s1", ["a", "k"]), ("s2", ["k"])], [("s1", ["a"])]], [[("s1", ["a", "k"]), ("s2", ["k"])], [("s1", ["a"])]],
      ["walk", "c"], ["walk", "c"]) := by
  decide +kernel

/-- the slot "x_SLOT" has no attachments, and one animation shows it -/
def suffixed : J := Sample.doc [root] [slot "x_SLOT" "root", slot "x" "root" [("attachment", txt "b")]]
  [("default", obj [("x", obj [("b", region "j")])])]
  [("run", obj [("slots", obj [("x_SLOT", shows "a")])]), ("walk", obj [])]

/-- C82 is false of the code for such names: erasing "run" keeps the attachment "b", erasing nothing removes it. -/
theorem c82_counterexample : (Sample.load suffixed).map (fun e =>
    let eA := eraseAnims (names []) true false e
    let eB := eraseAnims (names ["run"]) true false e
    (fine eA, fine eB, keysOf eA.2, keysOf eB.2)) = some (.ok (), .ok (), [[]], [[("x", ["b"])]]) := by decide +kernel

/-- C83 is false of the code when the first call cleans: the slot "s2" goes with its region "k"; then nothing removes the mesh
"k" when the animation that shows it is erased.  Erasing both animations in one call removes it. -/
theorem c83_counterexample : (Sample.load stages).map (fun e =>
    let one := eraseAnims (names ["c", "b"]) true false e
    let two := eraseAnims (names ["b"]) true false (eraseAnims (names ["c"]) true false e).2
    (fine one, fine two, keysOf one.2, keysOf two.2)) =
    some (.ok (), .ok (), [[("s1", ["a"])], [("s1", ["a"])], [("s1", ["a"])]], [[("s1", ["a", "k"])], [("s1", ["a"])], [("s1", ["a"])]]) := by
  decide +kernel

/-- C84 does not extend to cleaning: which of the two calls cleans first decides whether the mesh "k" stays. -/
theorem c84_cleaning : (Sample.load stages).map (fun e =>
    let p := eraseAnims (names ["b"]) true false (eraseSkins (texts ["red"]) false e).2
    let q := eraseSkins (texts ["red"]) false (eraseAnims (names ["b"]) true false e).2
    (fine p, fine q, keysOf p.2, keysOf q.2)) =
    some (.ok (), .ok (), [[("s1", ["a", "k"])], [("s1", ["a"])]], [[("s1", ["a"])], [("s1", ["a"])]]) := by
  decide +kernel

end ComposeEx
end Editor
end Spine
