import Verif.Lemmas.SkinOps
import Verif.Lemmas.Images
import Verif.Spec.Sample
/- Checking the hypotheses of the history theorems on concrete documents. -/
set_option linter.unusedSectionVars false
namespace Spine
variable {F : Type} [PyRt F]

mutual
/-- no object has a key twice -/
def JVal.properB : JVal F → Bool
  | .list l => properL l
  | .dict d => decide (Dict.keys d).Nodup && properD d
  | _ => true
def JVal.properL : List (JVal F) → Bool
  | [] => true
  | x :: r => properB x && properL r
def JVal.properD : List (Str × JVal F) → Bool
  | [] => true
  | (_, v) :: r => properB v && properD r
end

mutual
theorem JVal.proper_of : ∀ (v : JVal F), v.properB = true → v.Proper
  | .null, _ => .null
  | .bool b, _ => .bool b
  | .int i, _ => .int i
  | .flt x, _ => .flt x
  | .str s, _ => .str s
  | .list l, h => .list (proper_ofL l (by rw [JVal.properB] at h; exact h))
  | .dict d, h => by
    rw [JVal.properB, Bool.and_eq_true, decide_eq_true_eq] at h
    exact .dict h.1 (proper_ofD d h.2)
theorem JVal.proper_ofL : ∀ (l : List (JVal F)), JVal.properL l = true → ∀ x ∈ l, x.Proper
  | [], _ => by intro x hx; cases hx
  | y :: r, h => by
    rw [JVal.properL, Bool.and_eq_true] at h
    have h1 := proper_of y h.1
    have h2 := proper_ofL r h.2
    intro x hx
    rcases List.mem_cons.1 hx with rfl | hx
    · exact h1
    · exact h2 x hx
theorem JVal.proper_ofD : ∀ (l : List (Str × JVal F)), JVal.properD l = true → ∀ p ∈ l, p.2.Proper
  | [], _ => by intro x hx; cases hx
  | (k, v) :: r, h => by
    rw [JVal.properD, Bool.and_eq_true] at h
    have h1 := proper_of v h.1
    have h2 := proper_ofD r h.2
    intro x hx
    rcases List.mem_cons.1 hx with rfl | hx
    · exact h1
    · exact h2 x hx
end

/-- a decidable form of `<:+:` -/
def hasInfix (t : Str) : Str → Bool
  | [] => t.isEmpty
  | c :: s => t.isPrefixOf (c :: s) || hasInfix t s

theorem hasInfix_iff (t s : Str) : hasInfix t s = true ↔ t <:+: s := by
  induction s with
  | nil => simp [hasInfix, List.isEmpty_iff]
  | cons c s ih => rw [hasInfix, Bool.or_eq_true, ih, List.infix_cons_iff, List.isPrefixOf_iff_prefix]

/-- the image an attachment shows -/
def Att.imageText (key : Str) (x : Att F) : Str :=
  match Dict.get? x.attrs s!!"path" with
  | some (.str (c :: s)) => c :: s
  | _ => match Dict.get? x.attrs s!!"name" with
    | some (.str (c :: s)) => c :: s
    | _ => key

theorem Att.imageText_spec (key : Str) (x : Att F) : ImageName key x (x.imageText key) := by
  have nt : ∀ k, (∀ c s, Dict.get? x.attrs k ≠ some (.str (c :: s))) → x.NoText k := by
    intro k h t ht
    cases t with
    | nil => rfl
    | cons c s => exact absurd ht (h c s)
  unfold Att.imageText
  split
  · rename_i c s h; exact .path h (by simp)
  · rename_i h1
    split
    · rename_i c s h; exact .name (nt _ h1) h (by simp)
    · rename_i h2; exact .key (nt _ h1) (nt _ h2)

/-- a decidable form of `NamesOk` -/
def AnimData.namesB (a : AnimData F) : Bool :=
  a.slots.all (fun s => !hasInfix s!!"_SLOT" s.name) &&
  a.skins.all (fun s => s.attachments.all (fun p => p.2.all (fun q =>
    !(List.isSuffixOf s!!"_ATTACHMENT" q.1) && !hasInfix s!!"_IMAGE" (q.2.imageText q.1))))

theorem AnimData.namesOk_of {a : AnimData F} (h : a.namesB = true) : a.NamesOk := by
  unfold namesB at h
  rw [Bool.and_eq_true, List.all_eq_true, List.all_eq_true] at h
  obtain ⟨h1, h2⟩ := h
  have key : ∀ slot key x, a.HasAtt slot key x → (¬ s!!"_ATTACHMENT" <:+ key) ∧ ¬ s!!"_IMAGE" <:+: x.imageText key := by
    rintro slot key x ⟨s, hs, d, hd, hx⟩
    have h := h2 s hs
    rw [List.all_eq_true] at h
    have h := h _ hd
    rw [List.all_eq_true] at h
    have h := h _ hx
    rw [Bool.and_eq_true] at h
    refine ⟨fun hc => ?_, fun hc => ?_⟩
    · rw [← List.isSuffixOf_iff_suffix] at hc
      rw [hc] at h; simp at h
    · rw [← hasInfix_iff] at hc
      rw [hc] at h; simp at h
  refine ⟨?_, ?_, ?_⟩
  · intro s hs hc
    rw [← hasInfix_iff] at hc
    have := h1 s hs
    rw [hc] at this; simp at this
  · intro slot k x i hx hi
    rw [hi.unique (x.imageText_spec k)]
    exact (key slot k x hx).2
  · intro slot k x hx
    exact (key slot k x hx).1

namespace Sample

/-- the hypotheses of the history theorems, checked on a document -/
def good (d : J) : Bool := d.properB && ((load d).any (fun e => e.data.namesB))

theorem ran_of {d : J} (h : good d = true) : ∃ e, load d = some e ∧ Editor.Ran e := by
  unfold good at h
  rw [Bool.and_eq_true] at h
  obtain ⟨h1, h2⟩ := h
  unfold load at h2 ⊢
  cases hl : Editor.load d with
  | error x => rw [hl] at h2; simp [Except.toOption] at h2
  | ok e =>
    rw [hl] at h2
    exact ⟨e, rfl, .load (JVal.proper_of d h1) hl (AnimData.namesOk_of (by simpa [Except.toOption] using h2))⟩

/-- the example document meets the hypotheses -/
example : ∃ e, load basic = some e ∧ Editor.Ran e := ran_of (by decide +kernel)

/-- slots and attachment names of every skin -/
def keysOf (e : Editor Rat) : List (List (String × List String)) :=
  e.data.skins.map (fun s => s.attachments.map (fun p => (String.ofList p.1, p.2.map (fun q => String.ofList q.1))))

def slotNames (e : Editor Rat) : List String := e.data.slots.map (fun s => String.ofList s.name)
def setups (e : Editor Rat) : List (Option String) := e.data.slots.map (fun s => s.attachment.map String.ofList)
/-- slots with a timeline, per animation -/
def timelines (e : Editor Rat) : List (List String) := e.data.animations.map (fun p => p.2.slots.map (fun q => String.ofList q.1))
/-- names in attachment keyframes, per animation -/
def keyframes (e : Editor Rat) : List (List (Option String)) :=
  e.data.animations.map (fun p => p.2.slots.flatMap (fun q => q.2.attachment.map (fun k => k.name.map String.ofList)))

/-- the outcome of a call: its value, or the exception -/
def outcome {σ : Type} (r : Res σ (List Str × List Str)) : Except Err (List String × List String) :=
  r.1.map (fun p => (p.1.map String.ofList, p.2.map String.ofList))

end Sample
end Spine
