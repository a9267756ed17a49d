import Verif.Props.Clean
import Verif.Lemmas.SampleRan
/- Concrete runs of `clean_animation`: cases that meet the hypotheses of C38–C43 and C55, and counterexamples. -/
set_option synthInstance.maxHeartbeats 200000
set_option synthInstance.maxSize 1000
namespace Spine
namespace Editor
open JVal Sample

/-! ## Cases that meet the hypotheses -/

/-- one run with all effects: `s3` and `s4` are removed (never shown; shown but left without attachments), `a3` and `c1` are
removed as unused, the mesh `a2` stays -/
def cleanable : J := Sample.doc [root, bone "arm" "root"]
  [slot "s1" "arm" [("attachment", txt "a1")], slot "s2" "arm", slot "s3" "root", slot "s4" "root" [("attachment", txt "zz")]]
  [("default", obj [("s1", obj [("a1", region "img/a1"), ("a2", mesh "img/a2"), ("a3", region "img/a3")]), ("s2", obj [("b1", obj [])]),
      ("s3", obj [("a1", region "img/x")]), ("s4", obj [("c1", region "img/c1")])])]
  [("walk", obj [("slots", obj [("s2", shows "b1")]), ("drawOrder", .list [obj [("offsets", .list [obj [("slot", txt "s1"), ("offset", .int 3)]])]])]),
   ("run", obj [])]

example : ∃ e, Sample.load cleanable = some e ∧ Ran e := ran_of (by decide +kernel)

example : (Sample.load cleanable).map (fun e => (outcome (clean e), slotNames (clean e).2, keysOf (clean e).2)) =
    some (.ok (["s3", "s4"], ["a3", "c1"]), ["s1", "s2"], [[("s1", ["a1", "a2"]), ("s2", ["b1"])]]) := by decide +kernel

/-! ## Counterexamples -/

/-- the unused attachment "a_ATTACHMENT" equals the graph id of the attachment "a" -/
def attName : J := Sample.doc [root] [slot "s1" "root" [("attachment", txt "a")], slot "s2" "root" [("attachment", txt "b")]]
  [("default", obj [("s1", obj [("a", region "i")]), ("s2", obj [("b", region "j"), ("a_ATTACHMENT", region "k")])])]
  [("run", obj [])]

/-- C38 is false of the code: cleaning removes the setup attachment of a slot that stays. -/
theorem c38_counterexample : (Sample.load attName).map (fun e => (setups e, outcome (clean e), setups (clean e).2)) =
    some ([some "a", some "b"], .ok ([], ["a_ATTACHMENT"]), [none, some "b"]) := by decide +kernel

/-- the slot "x_SLOT" has no attachments -/
def slotName : J := Sample.doc [root] [slot "x_SLOT" "root" [("attachment", txt "a")], slot "x" "root" [("attachment", txt "b")]]
  [("default", obj [("x", obj [("b", region "j")])])]
  [("run", obj [("slots", obj [("x_SLOT", shows "a")])])]

/-- C39 is false of the code: the slot "x_SLOT" is removed, the list names "x", whose attachments go. -/
theorem c39_counterexample : (Sample.load slotName).map (fun e => (slotNames e, outcome (clean e), slotNames (clean e).2, keysOf (clean e).2)) =
    some (["x_SLOT", "x"], .ok (["x"], []), ["x"], [[]]) := by decide +kernel

/-- C40 is false of the code for these names: the attachment "b" is shown on the slot "x", which stays, and is removed. -/
theorem c40_counterexample : (Sample.load slotName).map (fun e => (keysOf e, slotNames (clean e).2, setups (clean e).2, keysOf (clean e).2)) =
    some ([[("x", ["b"])]], ["x"], [some "b"], [[]]) := by decide +kernel

/-- C42 is false of the code: the animation keeps a timeline for the slot "x_SLOT", which is gone. -/
theorem c42_counterexample : (Sample.load slotName).map (fun e => (slotNames (clean e).2, timelines (clean e).2)) =
    some (["x"], [["x_SLOT"]]) := by decide +kernel

/-- the name "m" belongs to a mesh of the slot "s1" and to a region of the slot "s2" -/
def sharedName : J := Sample.doc [root] [slot "s1" "root" [("attachment", txt "a")], slot "s2" "root" [("attachment", txt "b")]]
  [("default", obj [("s1", obj [("a", region "i"), ("m", mesh "j")]), ("s2", obj [("b", region "k"), ("m", region "l")])])]
  [("run", obj [])]

/-- C41 is false of the code: the mesh goes, although its slot is shown. -/
theorem c41_counterexample : (Sample.load sharedName).map (fun e => (slotNames (clean e).2, outcome (clean e), keysOf (clean e).2)) =
    some (["s1", "s2"], .ok ([], ["m"]), [[("s1", ["a"]), ("s2", ["b"])]]) := by decide +kernel

example : good sharedName = true := by decide +kernel

/-- a transparent slot: "walk" does not show it, "run" does -/
def fading : J := Sample.doc [root] [slot "s1" "root" [("attachment", txt "a"), ("color", txt "ffffff00")]]
  [("default", obj [("s1", obj [("a", region "i"), ("k", region "j")])])]
  [("walk", obj [("slots", obj [("s1", shows "k")])]),
   ("run", obj [("slots", obj [("s1", obj [("color", .list [obj [("time", .int 0), ("color", txt "ffffffff")]])])])])]

/-- C43 is false of the code: "k" is removed, the animation "walk" still has a keyframe that shows it. -/
theorem c43_counterexample : (Sample.load fading).map (fun e => (outcome (clean e), keysOf (clean e).2, keyframes (clean e).2)) =
    some (.ok ([], ["k"]), [[("s1", ["a"])]], [[some "k"], []]) := by decide +kernel

example : good fading = true := by decide +kernel

/-- a drawOrder offset names an unknown slot, and the attachment "b" is unused -/
def badDraw : J := Sample.doc [root] [slot "s1" "root" [("attachment", txt "a")]]
  [("default", obj [("s1", obj [("a", region "i"), ("b", region "j")])])]
  [("run", obj [("drawOrder", .list [obj [("offsets", .list [obj [("slot", txt "zz"), ("offset", .int 1)]])]])])]

/-- C55 is false of the code after a failed call: the second call fails on a missing graph node, although the cause
of the first failure was removed in between. -/
theorem c55_counterexample : (Sample.load badDraw).map (fun e =>
    let f := (clean e).2
    let g := (eraseAnims (.list [s!!"run"]) true true f).2
    (outcome (clean e), outcome (clean g))) =
    some (.error .value, .error .value) := by decide +kernel

example : good badDraw = true := by decide +kernel

/-- the four causes of C55 occur -/
example : (Sample.load (Sample.doc [root] [slot "s1" "root" [("color", txt "zz")]] [] [])).map (fun e => outcome (clean e)) = some (.error .value) ∧
    (Sample.load (Sample.doc [root] [slot "s1" "root"] [] [("run", obj [("slots", obj [("s2", obj [])])])])).map (fun e => outcome (clean e)) = some (.error .key) ∧
    (Sample.load (Sample.doc [root] [slot "s1" "root"] [] [("run", obj [])])).map (fun e => outcome (clean e)) = some (.error .type) ∧
    (Sample.load badDraw).map (fun e => outcome (clean e)) = some (.error .value) := by decide +kernel

/-! ## C54 -/

/-- the slot "s1" is shown with "k" but has no attachments; "s2" has an attachment named "k" -/
def cascade : J := Sample.doc [root] [slot "s1" "root" [("attachment", txt "k")], slot "s2" "root" [("attachment", txt "m")]]
  [("default", obj [("s2", obj [("m", region "i"), ("k", region "j")])])]
  [("run", obj [])]

/-- C54 is false of the code: the second call removes the attachment "k", which the first call kept for the slot "s1". -/
theorem c54_counterexample : (Sample.load cascade).map (fun e =>
    let f := (clean e).2
    (outcome (clean e), outcome (clean f), keysOf f, keysOf (clean f).2)) =
    some (.ok (["s1"], []), .ok ([], ["k"]), [[("s2", ["m", "k"])]], [[("s2", ["m"])]]) := by decide +kernel

/-- C54 is false of the code in another way: the second call raises TypeError. -/
theorem c54_counterexample_raises : (Sample.load (Sample.doc [root] [slot "s1" "root" [("attachment", txt "k")]] [("default", obj [])] [("run", obj [])])).map (fun e =>
    let f := (clean e).2
    (outcome (clean e), outcome (clean f))) =
    some (.ok (["s1"], []), .error .type) := by decide +kernel

example : good cascade = true := by decide +kernel

/-- a case of `c54_second_partial`: every shown slot keeps an attachment, and nothing happens the second time -/
example : (Sample.load basic).map (fun e =>
    let f := (clean e).2
    (outcome (clean e), outcome (clean f), slotNames f, slotNames (clean f).2, decide (keysOf f = keysOf (clean f).2))) =
    some (.ok (["s3"], []), .ok ([], []), ["s1", "s2 [scale:0.5]"], ["s1", "s2 [scale:0.5]"], true) := by decide +kernel

end Editor
end Spine
