import Verif.Model.Cast
import Verif.Model.SpineNodes
import Verif.Lemmas.Repr
import Verif.Spec.Concrete
/-
C76: `cast_element` gives a value of the requested type, or raises.  False for booleans: a string that is not `true` or `false`
stays a string.
-/
namespace Spine
namespace Cast
open JVal
variable {F : Type} [PyCast F]

/-- the Python type asked for -/
def HasType (ty : Str) : JVal F → Prop
  | .flt _ => ty = s!!"number"
  | .int _ => ty = s!!"integer"
  | .str _ => ty = s!!"string"
  | .bool _ => ty = s!!"boolean"
  | _ => False

/-- the strings `True`, `true`, `TRUE`, … in letters of any case -/
def SpellsOut (w s : Str) : Prop := s.map Char.toLower = w

theorem toFloat_err (v : JVal F) (e : Err) (h : toFloat v = .error e) :
    (e = .value ∧ ∃ s, v = .str s) ∨ e = .overflow ∨ (e = .type ∧ (v = .null ∨ (∃ l, v = .list l) ∨ ∃ d, v = .dict d)) := by
  cases v with
  | null => injection h with h; subst h; exact .inr (.inr ⟨rfl, .inl rfl⟩)
  | bool b => simp only [toFloat] at h; split at h <;> cases h; exact .inr (.inl rfl)
  | int b => simp only [toFloat] at h; split at h <;> cases h; exact .inr (.inl rfl)
  | flt f => cases h
  | str s => simp only [toFloat] at h; split at h <;> cases h; exact .inl ⟨rfl, s, rfl⟩
  | list l => injection h with h; subst h; exact .inr (.inr ⟨rfl, .inr (.inl ⟨l, rfl⟩)⟩)
  | dict d => injection h with h; subst h; exact .inr (.inr ⟨rfl, .inr (.inr ⟨d, rfl⟩)⟩)

/-- C76: casting to `number` or `integer` gives a float or an int, or raises ValueError, TypeError or OverflowError; TypeError exactly for
null, lists and dictionaries. -/
theorem c76_numbers_partial (v : JVal F) (ty : Str) (ht : ty = s!!"number" ∨ ty = s!!"integer") :
    (∃ w, castElement v ty = .ok w ∧ HasType ty w) ∨ castElement v ty = .error .value ∨ castElement v ty = .error .overflow ∨
    (castElement v ty = .error .type ∧ (v = .null ∨ (∃ l, v = .list l) ∨ ∃ d, v = .dict d)) := by
  rcases ht with rfl | rfl
  · cases h : toFloat v with
    | ok f => left; exact ⟨.flt f, by simp [castElement, h, Except.map], rfl⟩
    | error e =>
      have hc : castElement v s!!"number" = .error e := by simp [castElement, h, Except.map]
      rcases toFloat_err v e h with ⟨rfl, -⟩ | rfl | ⟨rfl, h'⟩
      · exact .inr (.inl hc)
      · exact .inr (.inr (.inl hc))
      · exact .inr (.inr (.inr ⟨hc, h'⟩))
  · cases h : toFloat v with
    | ok f =>
      cases ht : PyCast.ftrunc f with
      | ok i => left; exact ⟨.int i, by simp [castElement, h, ht, Except.map], rfl⟩
      | error e =>
        have hc : castElement v s!!"integer" = .error e := by simp [castElement, h, ht, Except.map]
        rcases PyCast.ftrunc_err f e ht with rfl | rfl
        · exact .inr (.inl hc)
        · exact .inr (.inr (.inl hc))
    | error e =>
      have hc : castElement v s!!"integer" = .error e := by simp [castElement, h]
      rcases toFloat_err v e h with ⟨rfl, -⟩ | rfl | ⟨rfl, h'⟩
      · exact .inr (.inl hc)
      · exact .inr (.inr (.inl hc))
      · exact .inr (.inr (.inr ⟨hc, h'⟩))

/-- C76: casting to `string` always gives a string; a string is unchanged. -/
theorem c76_string (v : JVal F) :
    (∃ s, castElement v s!!"string" = .ok (.str s)) ∧ ∀ s, v = .str s → castElement v s!!"string" = .ok v := by
  constructor
  · exact ⟨_, rfl⟩
  · rintro s rfl; rfl

/-- C76: in the text of a list or dictionary a character takes at most the shortest of the escapes `\\xXX`, `\\uXXXX` and `\\UXXXXXXXX`
that can hold it. -/
theorem c76_escapes (pr : Char → Bool) (q c : Char) {k : Nat} (hk : k = 2 ∨ k = 4 ∨ k = 8) (h : c.toNat < 16 ^ k) :
    (Repr.char pr q c).length ≤ k + 2 := by
  have h2 : (16 : Nat) ^ 2 = 256 := rfl
  have h4 : (16 : Nat) ^ 4 = 65536 := rfl
  unfold Repr.char
  repeat' split
  all_goals simp only [List.length_cons, List.length_nil, Repr.length_hex]
  all_goals rcases hk with rfl | rfl | rfl <;> omega

example : Repr.char (fun _ => false) '"' (Char.ofNat 0xffff) = s!!"\\uffff" ∧ Repr.char (fun _ => false) '"' 'é' = s!!"\\xe9" := by decide +kernel

/-- C76: the names in graph ids, which the graph parser formats on its own, are these strings. -/
theorem c76_formatted (v : JVal F) (s : Str) (h : fmtId v = .ok s) : castElement v s!!"string" = .ok (.str s) := by
  cases v with
  | null => cases h; rfl
  | bool b => cases b <;> (cases h; rfl)
  | int i => cases h; rfl
  | flt x => cases h
  | str t => cases h; rfl
  | list l => cases h
  | dict d => cases h

example : [.int 0, .int (-12), .null, .bool true, .str s!!"a"].map (fmtId (F := Rat)) = [s!!"0", s!!"-12", s!!"None", s!!"True", s!!"a"].map .ok := by
  decide +kernel

/-- C76: numbers, booleans, null, lists and dictionaries that are cast to the same string are the same: nothing is lost. -/
theorem c76_string_distinct {v w : JVal F} (hv : ∀ s, v ≠ .str s) (hw : ∀ s, w ≠ .str s) (h : castElement v s!!"string" = castElement w s!!"string") :
    v = w := by
  have hs : ∀ v : JVal F, (∀ s, v ≠ .str s) → castElement v s!!"string" = .ok (.str (Repr.val (PyCast.printable F) PyCast.fstr v)) := by
    intro v hv
    cases v with
    | str s => exact absurd rfl (hv s)
    | _ => rfl
  rw [hs v hv, hs w hw] at h
  injection h with h
  injection h with h
  exact Repr.val_inj PyCast.fstr_floats h

/-- C76: casting to `boolean`: booleans are unchanged, the ASCII strings that spell `true` or `false` in letters of any case become
booleans, every other ASCII string comes back as the string it is, and everything else raises ValueError. -/
theorem c76_boolean_partial (v : JVal F) :
    (∀ b, v = .bool b → castElement v s!!"boolean" = .ok (.bool b)) ∧
    (∀ s : Str, v = .str s → (∀ c ∈ s, c.toNat < 128) →
      (SpellsOut s!!"true" s → castElement v s!!"boolean" = .ok (.bool true)) ∧
      (SpellsOut s!!"false" s → castElement v s!!"boolean" = .ok (.bool false)) ∧
      (¬ SpellsOut s!!"true" s → ¬ SpellsOut s!!"false" s → castElement v s!!"boolean" = .ok (.str s))) ∧
    ((∀ b, v ≠ .bool b) → (∀ s, v ≠ .str s) → castElement v s!!"boolean" = .error .value) := by
  have hb : ∀ v : JVal F, castElement v s!!"boolean" = toBool v := fun v => rfl
  refine ⟨?_, ?_, ?_⟩
  · rintro b rfl; rfl
  · rintro s rfl hs
    rw [hb]
    simp only [toBool, PyCast.lower_ascii s hs, SpellsOut]
    refine ⟨?_, ?_, ?_⟩
    · intro h; rw [if_pos h]
    · intro h; rw [if_neg (by rw [h]; decide), if_pos h]
    · intro h1 h2; rw [if_neg h1, if_neg h2]
  · intro h1 h2
    rw [hb]
    cases v with
    | bool b => exact absurd rfl (h1 b)
    | str s => exact absurd rfl (h2 s)
    | _ => rfl

/-- C76: casting twice is casting once, for every type name (an unknown one leaves every value as it is). -/
theorem c76_idempotent (v w : JVal F) (ty : Str) (h : castElement v ty = .ok w) : castElement w ty = .ok w := by
  unfold castElement at h ⊢
  split
  · rename_i e
    rw [if_pos e] at h
    cases hf : toFloat v with
    | error e => rw [hf] at h; cases h
    | ok f => rw [hf] at h; injection h with h; subst h; rfl
  · rename_i e1
    rw [if_neg e1] at h
    split
    · rename_i e
      rw [if_pos e] at h
      cases hf : toFloat v with
      | error e => rw [hf] at h; cases h
      | ok f =>
        rw [hf] at h
        simp only at h
        cases ht : PyCast.ftrunc f with
        | error e => rw [ht] at h; cases h
        | ok i =>
          rw [ht] at h; injection h with h; subst h
          obtain ⟨g, hg, hg'⟩ := PyCast.ftrunc_exact f i ht
          simp only [toFloat, hg, hg', Except.map]
    · rename_i e2
      rw [if_neg e2] at h
      split
      · rename_i e
        rw [if_pos e] at h
        injection h with h; subst h; rfl
      · rename_i e3
        rw [if_neg e3] at h
        split
        · rename_i e
          rw [if_pos e] at h
          cases v with
          | bool b => injection h with h; subst h; rfl
          | str s =>
            simp only [toBool] at h
            split at h
            · injection h with h; subst h; rfl
            · rename_i h1
              split at h
              · injection h with h; subst h; rfl
              · rename_i h2
                injection h with h; subst h
                simp only [toBool, if_neg h1, if_neg h2]
          | _ => cases h
        · rfl

/-- C76: the values of name tags (C32) are cast by `cast_element` to `number`. -/
theorem c76_tags (s : Str) : castElement (F := F) (.str s) s!!"number" = (Tags.castNumber F s).map .flt := by
  have : castElement (F := F) (.str s) s!!"number" = (toFloat (.str s)).map .flt := rfl
  rw [this]
  simp only [toFloat, Tags.castNumber]
  cases PyRt.fparse (F := F) s <;> rfl

/-! Non-vacuity and the counterexample -/

/-- rational numbers are written as fractions -/
def fraction (q : Rat) : Str := JsonText.encodeInt q.num ++ '/' :: natStr q.den

theorem digit_of {n : Nat} {c : Char} (h : c ∈ natStr n) : 48 ≤ c.toNat ∧ c.toNat ≤ 57 := JsonText.natStr_digits n c h

theorem int_chars {i : Int} {c : Char} (h : c ∈ JsonText.encodeInt i) : c = '-' ∨ 48 ≤ c.toNat ∧ c.toNat ≤ 57 := by
  unfold JsonText.encodeInt at h
  split at h
  · rcases List.mem_cons.1 h with rfl | h
    · exact .inl rfl
    · exact .inr (digit_of h)
  · exact .inr (digit_of h)

theorem fraction_floats : Repr.Floats fraction := by
  have hsl : ∀ q, '/' ∈ fraction q := fun q => by simp [fraction]
  refine ⟨?_, ?_, ?_, ?_⟩
  · intro p q h
    have key : ∀ {a b c d : Str}, '/' ∉ a → '/' ∉ b → a ++ '/' :: c = b ++ '/' :: d → a = b ∧ c = d := by
      intro a
      induction a with
      | nil =>
        intro b c d _ hb h
        cases b with
        | nil => simpa using h
        | cons x b => simp only [List.nil_append, List.cons_append] at h; injection h with h _; subst h; simp at hb
      | cons y a ih =>
        intro b c d ha hb h
        cases b with
        | nil => simp only [List.nil_append, List.cons_append] at h; injection h with h _; subst h; simp at ha
        | cons x b =>
          simp only [List.cons_append] at h
          injection h with h1 h2
          obtain ⟨h3, h4⟩ := ih (fun hc => ha (List.mem_cons_of_mem _ hc)) (fun hc => hb (List.mem_cons_of_mem _ hc)) h2
          exact ⟨by rw [h1, h3], h4⟩
    have hn : ∀ i : Int, '/' ∉ JsonText.encodeInt i := by
      intro i hc
      rcases int_chars hc with h | h <;> revert h <;> decide
    obtain ⟨h1, h2⟩ := key (hn _) (hn _) h
    exact Rat.ext (Repr.encodeInt_inj h1) (natStr_inj h2)
  · intro q
    have hw := Repr.encodeInt_word q.num
    refine ⟨by simp [fraction], ?_, ?_⟩
    · intro c hc
      rcases List.mem_append.1 hc with hc | hc
      · exact hw.stop c hc
      · rcases List.mem_cons.1 hc with rfl | hc
        · decide
        · have := digit_of hc
          rintro (rfl | rfl | rfl) <;> revert this <;> decide
    · intro c hc
      refine hw.head c ?_
      unfold fraction at hc
      cases h : JsonText.encodeInt q.num with
      | nil => exact absurd h hw.ne
      | cons d r => rw [h] at hc; exact hc
  · intro q i h
    have := hsl q
    rw [h] at this
    rcases int_chars this with h | h <;> revert h <;> decide
  · intro q
    have := hsl q
    refine ⟨?_, ?_, ?_⟩ <;> intro h <;> rw [h] at this <;> revert this <;> decide

/-- rational numbers, ASCII letters -/
@[reducible] def ratCast : PyCast Rat where
  toPyRt := ratRt
  ftrunc q := .ok (q.num.tdiv q.den)
  fstr := fraction
  lower s := s.map Char.toLower
  printable _ := true
  fstr_floats := fraction_floats
  ftrunc_err := by intro f e h; cases h
  ftrunc_exact := by
    intro f i h
    exact ⟨(i : Rat), rfl, by simp⟩
  lower_ascii := by intro s _; rfl

attribute [local instance] ratCast

/-- C76 is false of the code: casting `yes` to `boolean` neither gives a boolean nor raises. -/
theorem c76_counterexample : castElement (F := Rat) (.str s!!"yes") s!!"boolean" = .ok (.str s!!"yes") ∧
    ¬ HasType s!!"boolean" (.str s!!"yes" : JVal Rat) := by
  refine ⟨by rfl, by simp [HasType]⟩

example : castElement (F := Rat) (.str s!!"TrUe") s!!"boolean" = .ok (.bool true) ∧ castElement (F := Rat) (.str s!!"2.5") s!!"integer" = .ok (.int 2) ∧
    castElement (F := Rat) (.flt (-7/2)) s!!"integer" = .ok (.int (-3)) ∧ castElement (F := Rat) .null s!!"number" = .error .type ∧
    castElement (F := Rat) (.int (-12)) s!!"string" = .ok (.str s!!"-12") ∧ castElement (F := Rat) (.int 1) s!!"boolean" = .error .value := by
  have t : (5/2 : Rat).num.tdiv (5/2 : Rat).den = 2 ∧ (-7/2 : Rat).num.tdiv (-7/2 : Rat).den = -3 := by decide +kernel
  have h : PyRt.fparse (F := Rat) s!!"2.5" = some (5/2) := by decide +kernel
  refine ⟨by rfl, ?_, ?_, by rfl, ?_, by rfl⟩
  · have : castElement (F := Rat) (.str s!!"2.5") s!!"integer" = .ok (.int ((5/2 : Rat).num.tdiv (5/2 : Rat).den)) := by
      simp [castElement, toFloat, h, PyCast.ftrunc, Except.map]
    rw [this, t.1]
  · have : castElement (F := Rat) (.flt (-7/2)) s!!"integer" = .ok (.int ((-7/2 : Rat).num.tdiv (-7/2 : Rat).den)) := by
      simp [castElement, toFloat, PyCast.ftrunc, Except.map]
    rw [this, t.2]
  · have : toStr (F := Rat) (.int (-12)) = s!!"-12" := by decide +kernel
    simp [castElement, this]

example : castElement (F := Rat) (.list [.str s!!"it's", .null, .dict [(s!!"a\n", .bool true)], .list []]) s!!"string" =
    .ok (.str s!!"[\"it's\", None, {'a\\n': True}, []]") := by rfl

/-- without the condition that they are not strings it is false: the list `[]` and the string `"[]"` -/
theorem c76_string_counterexample : castElement (F := Rat) (.list []) s!!"string" = castElement (.str s!!"[]") s!!"string" ∧
    (JVal.list [] : JVal Rat) ≠ .str s!!"[]" := ⟨by rfl, by simp⟩

end Cast
end Spine
