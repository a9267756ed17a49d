import Verif.Props.DrawnErase
/- Cases that meet the hypotheses of C62, and counterexamples. -/
set_option synthInstance.maxHeartbeats 200000
set_option synthInstance.maxSize 1000
set_option linter.unusedSectionVars false
namespace Spine
open JVal
variable {F : Type} [PyRt F]

/-! ## Checking the hypotheses -/

def AnimData.ordinaryB (a : AnimData F) : Bool :=
  a.animations.all (fun p => p.2.slots.all (fun q => !(q.2.attachment.isEmpty && q.2.color.isEmpty && q.2.twoColor.isEmpty))) &&
  a.skins.all (fun s => s.attachments.all (fun p => p.2.all (fun q => q.1 ≠ s!!"None")))

theorem AnimData.ordinary_of {a : AnimData F} (h : a.ordinaryB = true) : a.Ordinary := by
  unfold ordinaryB at h
  simp only [Bool.and_eq_true, List.all_eq_true, decide_eq_true_iff] at h
  refine ⟨fun p hp q hq => ?_, ?_⟩
  · have := h.1 p hp q hq
    unfold SlotTl.Coloured
    cases h1 : q.2.attachment with
    | cons x l => simp
    | nil => cases h2 : q.2.color with
      | cons x l => simp
      | nil => cases h3 : q.2.twoColor with
        | cons x l => simp
        | nil => rw [h1, h2, h3] at this; simp at this
  · rintro slot x ⟨s, hs, d, hd, hx⟩
    exact h.2 s hs _ hd _ hx rfl

/-- a list of offsets Spine can apply -/
def DrawOrder.validB (offs : Dict Int) (orig : List Str) : Bool :=
  decide ((∀ k ∈ Dict.keys offs, k ∈ orig) ∧
    (∀ i < orig.length, ∀ o, Dict.get? offs (orig.getD i []) = some o → 0 ≤ (i : Int) + o ∧ (i : Int) + o < orig.length) ∧
    ∀ i < orig.length, ∀ j < orig.length, ∀ o, Dict.get? offs (orig.getD i []) = some o →
      ∀ p, Dict.get? offs (orig.getD j []) = some p → (i : Int) + o = j + p → i = j)

theorem DrawOrder.valid_map {α : Type} {name : α → Str} {offs : Dict Int} {orig : List α} (h : Valid id offs (orig.map name)) :
    Valid name offs orig := by
  refine ⟨by simpa using h.known, ?_, ?_⟩
  · intro i s o hi ho
    simpa using h.inside i (name s) o (by simp [hi]) ho
  · intro i j s t o p hi hj ho hp he
    exact h.distinct i j (name s) (name t) o p (by simp [hi]) (by simp [hj]) ho hp he

def AnimData.ordersB (a : AnimData F) : Bool :=
  a.animations.all (fun p => p.2.drawOrder.all (fun t => decide (Dict.keys t.offsets).Nodup &&
    DrawOrder.validB t.offsets (a.slots.map (·.name))))

theorem AnimData.orders_of {a : AnimData F} (h : a.ordersB = true) : a.GoodOrders := by
  unfold ordersB DrawOrder.validB at h
  simp only [Bool.and_eq_true, List.all_eq_true, decide_eq_true_iff] at h
  intro p hp t ht
  obtain ⟨h1, h2, h3, h4⟩ := h p hp t ht
  exact ⟨h1, DrawOrder.valid_map (DrawOrder.valid_of_decide _ _ h2 h3 h4)⟩

def AnimData.movingB (a : AnimData F) (ids : List Str) : Bool :=
  a.animations.all (fun p => p.2.drawOrder.all (fun t => (Dict.keys t.offsets).all (fun n => decide (n ∈ ids) ||
    (List.range a.slots.length).all (fun i =>
      !(((a.slots.filter (fun s => s.name ∉ ids)).map (·.name))[i]? = some n &&
        (((DrawOrder.reorder Slot.name t.offsets a.slots).filter (fun s => s.name ∉ ids)).map (·.name))[i]? = some n)))))

theorem AnimData.moving_of {a : AnimData F} {ids : List Str} (hn : (a.slots.map (·.name)).Nodup) (hg : a.GoodOrders)
    (h : a.movingB ids = true) : a.Moving ids := by
  intro p hp t ht L hL n i hk hid hc
  have e := DrawOrder.realises_unique hn hL (DrawOrder.reorder_realises a.slots (hg p hp t ht).2)
  rw [e] at hc
  unfold movingB at h
  simp only [List.all_eq_true, Bool.or_eq_true, decide_eq_true_iff, Bool.not_eq_true', Bool.and_eq_false_iff,
    decide_eq_false_iff_not, List.mem_range] at h
  have hl : i < a.slots.length := by
    have h1 : i < ((a.slots.filter (fun s => s.name ∉ ids)).map (·.name)).length := (List.getElem?_eq_some_iff.1 hc.1).1
    rw [List.length_map] at h1
    have := List.length_filter_le (fun s : Slot F => s.name ∉ ids) a.slots
    omega
  rcases h p hp t ht n hk with h | h
  · exact hid h
  · rcases h i hl with h | h
    · exact h hc.1
    · exact h hc.2

/-! ## Examples -/

namespace Editor
open Sample

/-- four slots, of which `s3` and `s4` go; `s1` is drawn behind `s2` at first, in front of it later -/
def moved : J := Sample.doc [root, bone "arm" "root"]
  [slot "s1" "arm" [("attachment", txt "a1")], slot "s3" "root", slot "s2" "arm" [("attachment", txt "b1")], slot "s4" "root" [("attachment", txt "zz")]]
  [("default", obj [("s1", obj [("a1", region "img/a1"), ("a3", region "img/a3")]), ("s2", obj [("b1", obj [])]),
      ("s3", obj [("a1", region "img/x")]), ("s4", obj [("c1", region "img/c1")])])]
  [("walk", obj [("slots", obj [("s2", shows "b1")]), ("drawOrder", .list [obj [("time", .int 1), ("offsets", .list [obj [("slot", txt "s1"), ("offset", .int 2)]])]])])]

/-- the hypotheses of C62 are met by a document from which slots and attachments are removed and whose order changes -/
example : ∃ e ids atts e', Sample.load moved = some e ∧ Ran e ∧ e.data.Ordinary ∧ e.data.GoodOrders ∧ clean e = (.ok (ids, atts), e') ∧
    e.data.Moving ids ∧ ids ≠ [] ∧ atts ≠ [] := by
  obtain ⟨e, he, hr⟩ := ran_of (d := moved) (by decide +kernel)
  have h1 : (Sample.load moved).any (fun e => e.data.ordinaryB && e.data.ordersB &&
      match (clean e).1 with | .ok (ids, atts) => e.data.movingB ids && !ids.isEmpty && !atts.isEmpty | .error _ => false) = true := by
    decide +kernel
  rw [he] at h1
  simp only [Option.any_some, Bool.and_eq_true] at h1
  obtain ⟨⟨h1, h2⟩, h3⟩ := h1
  generalize hc : clean e = c at h3
  obtain ⟨r, e'⟩ := c
  cases r with
  | error x => simp at h3
  | ok p =>
    obtain ⟨ids, atts⟩ := p
    simp only [Bool.and_eq_true, Bool.not_eq_true', List.isEmpty_eq_false_iff] at h3
    exact ⟨e, ids, atts, e', he, hr, AnimData.ordinary_of h1, AnimData.orders_of h2, hc,
      AnimData.moving_of hr.sync.slotNames (AnimData.orders_of h2) h3.1.1, h3.1.2, h3.2⟩

/-- the hypotheses of C62 for `erase_animations`: "walk" goes and takes the slot with it that only it shows -/
example : ∃ e e' r, Sample.load basic = some e ∧ Ran e ∧ e.data.Ordinary ∧ eraseAnims (.list [s!!"walk"]) true false e = (.ok r, e') ∧ r.2.1 ≠ [] := by
  obtain ⟨e, he, hr⟩ := ran_of (d := basic) (by decide +kernel)
  have h1 : (Sample.load basic).any (fun e => e.data.ordinaryB &&
      match (eraseAnims (.list [s!!"walk"]) true false e).1 with | .ok r => !r.2.1.isEmpty | .error _ => false) = true := by decide +kernel
  rw [he] at h1
  simp only [Option.any_some, Bool.and_eq_true] at h1
  obtain ⟨h1, h2⟩ := h1
  generalize hc : eraseAnims (.list [s!!"walk"]) true false e = c at h2
  obtain ⟨r, e'⟩ := c
  cases r with
  | error x => simp at h2
  | ok r => exact ⟨e, e', r, he, hr, AnimData.ordinary_of h1, hc, by simpa using h2⟩

/-- the hypotheses of C62 for `erase_skins`: the skin "red" goes -/
example : ∃ e e' r, Sample.load basic = some e ∧ Ran e ∧ e.data.Ordinary ∧ eraseSkins [s!!"red"] false e = (.ok r, e') ∧
    ∀ slot key x, e.data.HasAtt slot key x → ∀ n ∈ [s!!"red"], ¬ x.LinksTo n := by
  obtain ⟨e, he, hr⟩ := ran_of (d := basic) (by decide +kernel)
  have h1 : (Sample.load basic).any (fun e => e.data.ordinaryB && (eraseSkins [s!!"red"] false e).1.toOption.isSome &&
      e.data.skins.all (fun s => s.attachments.all (fun p => p.2.all (fun q => q.2.kind ≠ .linked)))) = true := by decide +kernel
  rw [he] at h1
  simp only [Option.any_some, Bool.and_eq_true, List.all_eq_true, decide_eq_true_iff] at h1
  obtain ⟨⟨h1, h2⟩, h3⟩ := h1
  cases hc : (eraseSkins [s!!"red"] false e).1 with
  | error x => rw [hc] at h2; simp [Except.toOption] at h2
  | ok r =>
    refine ⟨e, _, r, he, hr, AnimData.ordinary_of h1, Prod.ext hc rfl, ?_⟩
    rintro slot key x ⟨s, hs, d, hd, hx⟩ n _ hl
    exact h3 s hs _ hd _ hx hl.1

/-! ## Counterexamples -/

/-- everything is reached -/
def always : Moment Rat := ⟨fun _ => True, fun _ _ => trivial⟩

/-- a slot whose timeline has no keyframes -/
def emptyTimeline : J := Sample.doc [root] [slot "s1" "root" [("attachment", txt "a")]]
  [("default", obj [("s1", obj [("a", region "i")])])] [("run", obj [("slots", obj [("s1", obj [])])])]

/-- an attachment called "None" -/
def noneNamed : J := Sample.doc [root] [slot "s1" "root"]
  [("default", obj [("s1", obj [("None", region "i")])])] [("run", obj [("slots", obj [("s1", shows "None")])])]

/-- the single slot of a document, drawn by its single animation with its single skin -/
def single (e : Editor Rat) (k : String) : Prop :=
  ∃ s x sk d a, e.data.slots = [s] ∧ e.data.animations = [(s!!"run", x)] ∧ e.data.skins = [sk] ∧ sk.name = s!!"default" ∧
    sk.attachments = [(s.name, d)] ∧ d = [(k.toList, a)] ∧ s.color = none ∧
    ((∃ t, x.slots = [(s.name, t)] ∧ t.attachment = [] ∧ s.attachment = some k.toList) ∨
     (∃ t f, x.slots = [(s.name, t)] ∧ t.attachment = [f] ∧ f.name = some k.toList))

def singleB (e : Editor Rat) (k : String) : Bool :=
  match e.data.slots, e.data.animations, e.data.skins with
  | [s], [(n, x)], [sk] => decide (n = s!!"run") && decide (sk.name = s!!"default") && decide (s.color = none) &&
    (match sk.attachments with
     | [(s1, [(k', _)])] => decide (s1 = s.name) && decide (k' = k.toList)
     | _ => false) &&
    (match x.slots with
     | [(s2, t)] => decide (s2 = s.name) && (match t.attachment with
        | [] => decide (s.attachment = some k.toList)
        | [f] => decide (f.name = some k.toList)
        | _ => false)
     | _ => false)
  | _, _, _ => false

theorem single_of {e : Editor Rat} {k : String} (h : singleB e k = true) : single e k := by
  unfold singleB at h
  split at h
  · rename_i s n x sk h1 h2 h3
    simp only [Bool.and_eq_true, decide_eq_true_iff] at h
    obtain ⟨⟨⟨⟨rfl, h5⟩, h6⟩, h7⟩, h8⟩ := h
    split at h7
    · rename_i s1 k' a h9
      simp only [Bool.and_eq_true, decide_eq_true_iff] at h7
      obtain ⟨rfl, rfl⟩ := h7
      refine ⟨s, x, sk, _, a, h1, h2, h3, h5, h9, rfl, h6, ?_⟩
      split at h8
      · rename_i s2 t h10
        simp only [Bool.and_eq_true, decide_eq_true_iff] at h8
        obtain ⟨rfl, h8⟩ := h8
        split at h8
        · rename_i h11; exact .inl ⟨t, h10, h11, by simpa using h8⟩
        · rename_i f h11; exact .inr ⟨t, f, h10, h11, by simpa using h8⟩
        · simp at h8
      · simp at h8
    · simp at h7
  · simp at h

theorem single_draws {e : Editor Rat} {k : String} (h : single e k) : ∃ p, e.data.Draws s!!"run" always s!!"default" p := by
  obtain ⟨s, x, sk, d, a, h1, h2, h3, h4, h5, h6, h7, h8⟩ := h
  have hf : e.data.Finds s!!"default" s.name k.toList s!!"default" a :=
    .active rfl ⟨sk, by rw [h3]; simp, h4, d, by rw [h5]; simp, by rw [h6]; simp⟩
  refine ⟨⟨s, k.toList, s!!"default", a, (x.colours s.name).1, (x.colours s.name).2, x.deforms s!!"default" s.name k.toList⟩,
    x, by rw [h2]; simp, by rw [h1]; simp, ?_, hf, rfl, ?_, rfl⟩
  · rcases h8 with ⟨t, h8, h9, h10⟩ | ⟨t, f, h8, h9, h10⟩
    · exact .before (t := t) (by rw [h8]; simp) (by rw [h9]; simp) h10
    · exact .keyframe (t := t) (l := []) (r := []) (f := f) (by rw [h8]; simp) (by rw [h9]; simp) trivial (by simp) h10
  · rintro ⟨c, _, hc, _⟩
    rw [show (Sprite.slot _).color = none from h7] at hc; cases hc

/-- C62 is false of the code for a timeline without keyframes: the slot is drawn before and removed by cleaning. -/
theorem c62_counterexample_empty : ∃ e e' ids atts, Sample.load emptyTimeline = some e ∧ Ran e ∧ clean e = (.ok (ids, atts), e') ∧
    (∃ p, e.data.Draws s!!"run" always s!!"default" p) ∧ ¬ ∃ p, e'.data.Draws s!!"run" always s!!"default" p := by
  obtain ⟨e, he, hr⟩ := ran_of (d := emptyTimeline) (by decide +kernel)
  have h1 : (Sample.load emptyTimeline).any (fun e => singleB e "a" && (clean e).1.toOption.isSome && (clean e).2.data.slots.isEmpty) = true := by
    decide +kernel
  rw [he] at h1
  simp only [Option.any_some, Bool.and_eq_true] at h1
  obtain ⟨⟨h1, h2⟩, h3⟩ := h1
  cases hc : (clean e).1 with
  | error x => rw [hc] at h2; simp [Except.toOption] at h2
  | ok p =>
    refine ⟨e, (clean e).2, p.1, p.2, he, hr, Prod.ext hc rfl, single_draws (single_of h1), ?_⟩
    rintro ⟨q, _, _, hs, _⟩
    rw [List.isEmpty_iff.1 h3] at hs
    cases hs

/-- C62 is false of the code for an attachment called "None": it is drawn before and removed by cleaning. -/
theorem c62_counterexample_none : ∃ e e' ids atts, Sample.load noneNamed = some e ∧ Ran e ∧ clean e = (.ok (ids, atts), e') ∧
    (∃ p, e.data.Draws s!!"run" always s!!"default" p) ∧ ¬ ∃ p, e'.data.Draws s!!"run" always s!!"default" p := by
  obtain ⟨e, he, hr⟩ := ran_of (d := noneNamed) (by decide +kernel)
  have h1 : (Sample.load noneNamed).any (fun e => singleB e "None" && (clean e).1.toOption.isSome && (clean e).2.data.slots.isEmpty) = true := by
    decide +kernel
  rw [he] at h1
  simp only [Option.any_some, Bool.and_eq_true] at h1
  obtain ⟨⟨h1, h2⟩, h3⟩ := h1
  cases hc : (clean e).1 with
  | error x => rw [hc] at h2; simp [Except.toOption] at h2
  | ok p =>
    refine ⟨e, (clean e).2, p.1, p.2, he, hr, Prod.ext hc rfl, single_draws (single_of h1), ?_⟩
    rintro ⟨q, _, _, hs, _⟩
    rw [List.isEmpty_iff.1 h3] at hs
    cases hs

end Editor
end Spine
