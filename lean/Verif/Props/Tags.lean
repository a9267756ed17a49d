import Verif.Model.Tags
import Verif.Lemmas.Text
import Verif.Spec.Concrete
/- Property C32: `get_tags_from_name` (utils.py 48-67). -/
namespace Spine.Tags

/-! ## Declarative grammar of the tags -/

/-- `t` is a well-formed tag `[key:value]`: blanks around the key, a non-empty value of word characters, dots and
blanks. -/
structure IsTag (F : Type) [PyRt F] (t key value : Str) : Prop where
  shape : ∃ w₁ w₂, t = '[' :: (w₁ ++ (key ++ (w₂ ++ ':' :: (value ++ [']'])))) ∧ Blank F w₁ ∧ Blank F w₂
  key_ne : key ≠ []
  key_chars : ∀ c ∈ key, nameChar F c = true
  value_ne : value ≠ []
  value_chars : ∀ c ∈ value, valChar F c = true

/-- some part of `s` is a tag -/
def ContainsTag (F : Type) [PyRt F] (s : Str) : Prop := ∃ a t k v b, s = a ++ (t ++ b) ∧ IsTag F t k v

/-- `s` contains exactly the tags `ts` (key, value), in this order, with no tag in the gaps -/
inductive TagsOf (F : Type) [PyRt F] : Str → List (Str × Str) → Prop
  | none {s} : ¬ ContainsTag F s → TagsOf F s []
  | some {a t k v r ts} : ¬ ContainsTag F a → IsTag F t k v → TagsOf F r ts → TagsOf F (a ++ (t ++ r)) ((k, v) :: ts)

section
variable {F : Type} [PyRt F]

/-! ## character classes -/

theorem ascii_digit {c : Char} (h1 : '0' ≤ c) (h2 : c ≤ '9') : ∃ n : Fin 10, c = Char.ofNat (48 + n) := by
  have e1 : 48 ≤ c.toNat := h1
  have e2 : c.toNat ≤ 57 := h2
  refine ⟨⟨c.toNat - 48, by omega⟩, ?_⟩
  have : 48 + (c.toNat - 48) = c.toNat := by omega
  simp only [this, Char.ofNat_toNat]

theorem nameChar_not_space {c : Char} (h : nameChar F c = true) : PyRt.isSpace F c = false := by
  simp only [nameChar, Bool.or_eq_true, Bool.and_eq_true, decide_eq_true_eq, beq_iff_eq] at h
  rcases h with (h | ⟨h1, h2⟩) | h
  · cases hs : PyRt.isSpace F c with
    | false => rfl
    | true => rw [PyRt.space_not_word c hs] at h; cases h
  · obtain ⟨n, rfl⟩ := ascii_digit h1 h2
    exact PyRt.digit_not_space _ _ (PyRt.digit_ascii n)
  · subst h; exact PyRt.space_ascii '-' (by simp)

theorem space_not_nameChar {c : Char} (h : PyRt.isSpace F c = true) : nameChar F c = false := by
  cases hn : nameChar F c with
  | false => rfl
  | true => rw [nameChar_not_space hn] at h; cases h

theorem colon_not_space : PyRt.isSpace F ':' = false := PyRt.space_ascii ':' (by simp)
theorem colon_not_name : nameChar F ':' = false := by
  simp only [nameChar, PyRt.word_ascii (F := F) ':' (by simp)]; decide
theorem open_not_space : PyRt.isSpace F '[' = false := PyRt.space_ascii '[' (by simp)
theorem open_not_name : nameChar F '[' = false := by
  simp only [nameChar, PyRt.word_ascii (F := F) '[' (by simp)]; decide
theorem open_not_val : valChar F '[' = false := by
  simp only [valChar, PyRt.word_ascii (F := F) '[' (by simp), open_not_space]; decide
theorem close_not_val : valChar F ']' = false := by
  simp only [valChar, PyRt.word_ascii (F := F) ']' (by simp), PyRt.space_ascii (F := F) ']' (by simp)]; decide
theorem colon_not_val : valChar F ':' = false := by
  simp only [valChar, PyRt.word_ascii (F := F) ':' (by simp), colon_not_space]; decide

/-! ## the matcher -/

theorem takeWhile_split {p : Char → Bool} {a r : Str} (ha : ∀ c ∈ a, p c = true)
    (hr : ∀ c t, r = c :: t → p c = false) : (a ++ r).takeWhile p = a ∧ (a ++ r).dropWhile p = r := by
  induction a with
  | nil =>
    cases r with
    | nil => simp
    | cons c t => simp [hr c t rfl]
  | cons c a ih =>
    have := ih (fun x hx => ha x (by simp [hx]))
    simp [ha c (by simp), this.1, this.2]

theorem takeWhile_all {p : Char → Bool} (s : Str) : ∀ c ∈ s.takeWhile p, p c = true := by
  induction s with
  | nil => simp
  | cons d s ih =>
    intro c hc
    rw [List.takeWhile_cons] at hc
    split at hc
    · rename_i hd
      rcases List.mem_cons.1 hc with h | h
      · subst h; exact hd
      · exact ih c h
    · simp at hc

theorem matchTag_sound {s t rest : Str} (h : matchTag F s = some (t, rest)) :
    s = t ++ rest ∧ ∃ k v, IsTag F t k v := by
  unfold matchTag at h
  split at h
  · rename_i r
    simp only at h
    split at h
    · cases h
    · rename_i hnm
      split at h
      · rename_i r4 hr3
        split at h
        · cases h
        · rename_i hv
          split at h
          · rename_i rest' hr5
            injection h with h
            injection h with h1 h2
            subst h1; subst h2
            have e1 := List.takeWhile_append_dropWhile (p := PyRt.isSpace F) (l := r)
            have e2 := List.takeWhile_append_dropWhile (p := nameChar F) (l := r.dropWhile (PyRt.isSpace F))
            have e3 := List.takeWhile_append_dropWhile (p := PyRt.isSpace F)
              (l := (r.dropWhile (PyRt.isSpace F)).dropWhile (nameChar F))
            have e4 := List.takeWhile_append_dropWhile (p := valChar F) (l := r4)
            rw [hr3] at e3
            rw [hr5] at e4
            refine ⟨?_, _, _, ⟨_, _, by simp only [List.append_assoc, List.cons_append, List.nil_append]; rfl,
              takeWhile_blank _, takeWhile_blank _⟩, hnm, takeWhile_all _, hv, takeWhile_all _⟩
            conv => lhs; rw [← e1, ← e2, ← e3, ← e4]
            simp
          · cases h
      · cases h
  · cases h

theorem matchTag_complete {t k v : Str} (h : IsTag F t k v) (rest : Str) : matchTag F (t ++ rest) = some (t, rest) := by
  obtain ⟨⟨w₁, w₂, ht, hw₁, hw₂⟩, hk, hkc, hv, hvc⟩ := h
  have e : t ++ rest = '[' :: (w₁ ++ (k ++ (w₂ ++ (':' :: (v ++ (']' :: rest)))))) := by rw [ht]; simp
  rw [e]
  have hknil : ∀ c x, k ++ (w₂ ++ (':' :: (v ++ (']' :: rest)))) = c :: x → PyRt.isSpace F c = false := by
    intro c x hx
    cases k with
    | nil => exact absurd rfl hk
    | cons d k =>
      simp only [List.cons_append, List.cons.injEq] at hx
      rw [← hx.1]; exact nameChar_not_space (hkc d (by simp))
  have h1 := takeWhile_split (p := PyRt.isSpace F) hw₁ hknil
  have h2 := takeWhile_split (p := nameChar F) (a := k) (r := w₂ ++ (':' :: (v ++ (']' :: rest)))) hkc (by
    intro c x hx
    cases w₂ with
    | nil =>
      simp only [List.nil_append, List.cons.injEq] at hx
      rw [← hx.1]; exact colon_not_name
    | cons d w₂ =>
      simp only [List.cons_append, List.cons.injEq] at hx
      rw [← hx.1]; exact space_not_nameChar (hw₂ d (by simp)))
  have h3 := takeWhile_split (p := PyRt.isSpace F) (a := w₂) (r := ':' :: (v ++ (']' :: rest))) hw₂ (by
    intro c x hx
    simp only [List.cons.injEq] at hx
    rw [← hx.1]; exact colon_not_space)
  have h4 := takeWhile_split (p := valChar F) (a := v) (r := ']' :: rest) hvc (by
    intro c x hx
    simp only [List.cons.injEq] at hx
    rw [← hx.1]; exact close_not_val)
  simp only [matchTag, h1.1, h1.2, h2.1, h2.2, h3.1, h3.2, h4.1, h4.2, if_neg hk, if_neg hv]
  rw [ht]; simp

/-- inside a tag there is no `[` but the first -/
theorem IsTag.tail_no_open {t k v : Str} (h : IsTag F t k v) : ∃ b, t = '[' :: b ∧ '[' ∉ b := by
  obtain ⟨⟨w₁, w₂, ht, hw₁, hw₂⟩, hk, hkc, hv, hvc⟩ := h
  refine ⟨_, ht, ?_⟩
  simp only [List.mem_append, List.mem_cons, List.not_mem_nil, or_false, not_or]
  refine ⟨?_, ?_, ?_, by decide, ?_, by decide⟩
  · intro hm; have := hw₁ _ hm; rw [open_not_space] at this; cases this
  · intro hm; have := hkc _ hm; rw [open_not_name] at this; cases this
  · intro hm; have := hw₂ _ hm; rw [open_not_space] at this; cases this
  · intro hm; have := hvc _ hm; rw [open_not_val] at this; cases this

theorem matchTag_none_of_not {s : Str} (h : ¬ ContainsTag F s) : matchTag F s = none := by
  cases hm : matchTag F s with
  | none => rfl
  | some p =>
    obtain ⟨e, k, v, ht⟩ := matchTag_sound (t := p.1) (rest := p.2) hm
    exact absurd ⟨[], p.1, k, v, p.2, e, ht⟩ h

theorem containsTag_cons {c : Char} {s : Str} (h : ContainsTag F s) : ContainsTag F (c :: s) := by
  obtain ⟨a, t, k, v, b, e, ht⟩ := h
  exact ⟨c :: a, t, k, v, b, by rw [e]; rfl, ht⟩

theorem findallAux_none {s : Str} (h : ¬ ContainsTag F s) (n : Nat) : findallAux F n s = [] := by
  induction n generalizing s with
  | zero => rfl
  | succ n ih =>
    cases s with
    | nil => rfl
    | cons c s =>
      rw [findallAux, matchTag_none_of_not h]
      exact ih (fun hc => h (containsTag_cons hc))

/-- a prefix without tag followed by a `[`-initial text cannot match early: any tag starting in the prefix would have
to lie inside the prefix, because a tag contains no second `[` -/
theorem matchTag_gap {a r : Str} {c : Char} (h : ¬ ContainsTag F (c :: a)) : matchTag F ((c :: a) ++ '[' :: r) = none := by
  cases hm : matchTag F ((c :: a) ++ '[' :: r) with
  | none => rfl
  | some p =>
    obtain ⟨e, k, v, ht⟩ := matchTag_sound (t := p.1) (rest := p.2) hm
    obtain ⟨b, hb, hno⟩ := ht.tail_no_open
    exfalso
    rw [hb] at e
    simp only [List.cons_append, List.cons.injEq] at e
    obtain ⟨hc, e⟩ := e
    rcases List.append_eq_append_iff.1 e with ⟨x, h1, h2⟩ | ⟨x, h1, h2⟩
    · -- b = a ++ x, '[' :: r = x ++ rest
      cases x with
      | nil =>
        refine h ⟨[], p.1, k, v, [], ?_, ht⟩
        rw [hb, h1, hc]; simp
      | cons d x =>
        simp only [List.cons_append, List.cons.injEq] at h2
        exact hno (by rw [h1, ← h2.1]; simp)
    · -- a = b ++ x
      refine h ⟨[], p.1, k, v, x, ?_, ht⟩
      rw [hb, h1, hc]; simp

theorem findallAux_gap {a t k v r : Str} (ha : ¬ ContainsTag F a) (ht : IsTag F t k v) (n : Nat) :
    findallAux F (a.length + (n + 1)) (a ++ (t ++ r)) = t :: findallAux F n r := by
  induction a with
  | nil =>
    obtain ⟨b, hb, _⟩ := ht.tail_no_open
    have hm := matchTag_complete ht r
    rw [List.length_nil, Nat.zero_add, List.nil_append]
    rw [hb] at hm ⊢
    rw [List.cons_append, findallAux]
    rw [List.cons_append] at hm
    rw [hm]
  | cons c a ih =>
    obtain ⟨b, hb, _⟩ := ht.tail_no_open
    have hgap : matchTag F ((c :: a) ++ (t ++ r)) = none := by
      rw [hb]; exact matchTag_gap ha
    have : (c :: a).length + (n + 1) = (a.length + (n + 1)) + 1 := by simp; omega
    rw [this, List.cons_append, findallAux]
    rw [List.cons_append] at hgap
    rw [hgap]
    exact ih (fun hc => ha (containsTag_cons hc))

theorem findallAux_nil (n : Nat) : findallAux F n [] = [] := by cases n <;> rfl

/-- more fuel than characters changes nothing -/
theorem findallAux_fuel (n m : Nat) (s : Str) (hn : s.length ≤ n) (hm : s.length ≤ m) :
    findallAux F n s = findallAux F m s := by
  induction n generalizing m s with
  | zero =>
    have : s = [] := by cases s <;> simp_all
    subst this; rw [findallAux_nil, findallAux_nil]
  | succ n ih =>
    cases s with
    | nil => rw [findallAux_nil, findallAux_nil]
    | cons c s =>
      cases m with
      | zero => simp at hm
      | succ m =>
        simp only [List.length_cons] at hn hm
        rw [findallAux, findallAux]
        cases hmt : matchTag F (c :: s) with
        | none => exact ih m s (by omega) (by omega)
        | some p =>
          obtain ⟨t, rest⟩ := p
          obtain ⟨e, k, v, ht⟩ := matchTag_sound hmt
          obtain ⟨b, hb, _⟩ := ht.tail_no_open
          have hl : rest.length ≤ s.length := by
            rw [hb] at e
            have := congrArg List.length e
            simp at this; omega
          simp only
          rw [ih m rest (by omega) (by omega)]

theorem findall_none {s : Str} (h : ¬ ContainsTag F s) : findall F s = [] := findallAux_none h _

theorem findall_some {a t k v r : Str} (ha : ¬ ContainsTag F a) (ht : IsTag F t k v) :
    findall F (a ++ (t ++ r)) = t :: findall F r := by
  unfold findall
  obtain ⟨b, hb, _⟩ := ht.tail_no_open
  rw [findallAux_fuel _ (a.length + ((t ++ r).length + 1)) _ (by simp) (by simp), findallAux_gap ha ht]
  rw [findallAux_fuel _ r.length r (by simp) (by simp)]

/-- every string decomposes into tags and tag-free gaps -/
theorem tagsOf_exists (s : Str) : ∃ ts, TagsOf F s ts := by
  -- strong induction on the length: take the leftmost position where a tag starts
  suffices h : ∀ n, ∀ s : Str, s.length ≤ n → ∃ ts, TagsOf F s ts from h s.length s (Nat.le_refl _)
  intro n
  induction n with
  | zero =>
    intro s hs
    have : s = [] := by cases s <;> simp_all
    subst this
    refine ⟨[], .none ?_⟩
    rintro ⟨a, t, k, v, b, e, ht⟩
    obtain ⟨b', hb, _⟩ := ht.tail_no_open
    rw [hb] at e
    have := congrArg List.length e
    simp at this
  | succ n ih =>
    intro s hs
    by_cases hc : ContainsTag F s
    · -- leftmost
      have left : ∀ s : Str, ContainsTag F s → ∃ a t k v b, s = a ++ (t ++ b) ∧ IsTag F t k v ∧ ¬ ContainsTag F a := by
        intro s
        induction s with
        | nil =>
          rintro ⟨a, t, k, v, b, e, ht⟩
          obtain ⟨b', hb, _⟩ := ht.tail_no_open
          rw [hb] at e
          have := congrArg List.length e
          simp at this
        | cons c s ih2 =>
          intro hcs
          have hnil : ¬ ContainsTag F [] := by
            rintro ⟨a, t, k, v, b, e, ht⟩
            obtain ⟨b', hb, _⟩ := ht.tail_no_open
            rw [hb] at e
            have := congrArg List.length e
            simp at this
          cases hm : matchTag F (c :: s) with
          | some p =>
            obtain ⟨e, k, v, ht⟩ := matchTag_sound (t := p.1) (rest := p.2) hm
            exact ⟨[], p.1, k, v, p.2, e, ht, hnil⟩
          | none =>
            have hcs' : ContainsTag F s := by
              obtain ⟨a, t, k, v, b, e, ht⟩ := hcs
              cases a with
              | nil =>
                rw [List.nil_append] at e
                rw [e, matchTag_complete ht] at hm; cases hm
              | cons d a =>
                simp only [List.cons_append, List.cons.injEq] at e
                exact ⟨a, t, k, v, b, e.2, ht⟩
            obtain ⟨a, t, k, v, b, e, ht, ha⟩ := ih2 hcs'
            refine ⟨c :: a, t, k, v, b, by rw [e]; rfl, ht, ?_⟩
            rintro ⟨a', t', k', v', b', e', ht'⟩
            cases a' with
            | nil =>
              have : matchTag F (c :: s) = some (t', b' ++ (t ++ b)) := by
                rw [e, ← List.cons_append, e']
                rw [List.nil_append, List.append_assoc]
                exact matchTag_complete ht' _
              rw [this] at hm; cases hm
            | cons d a' =>
              simp only [List.cons_append, List.cons.injEq] at e'
              exact ha ⟨a', t', k', v', b', e'.2, ht'⟩
      obtain ⟨a, t, k, v, b, e, ht, ha⟩ := left s hc
      obtain ⟨b', hb, _⟩ := ht.tail_no_open
      obtain ⟨ts, hts⟩ := ih b (by
        rw [e, hb] at hs
        simp at hs; omega)
      exact ⟨(k, v) :: ts, by rw [e]; exact .some ha ht hts⟩
    · exact ⟨[], .none hc⟩

/-! ## the loop over the tags -/

theorem step_eq {t k v : Str} (ht : IsTag F t k v) (acc : Dict F) :
    step F acc t = if Dict.has acc k then .error .value
      else if k ≠ s!!"scale" then .error .value
      else match PyRt.fparse (F := F) (strip F v) with
        | some x => .ok (Dict.set acc k x)
        | none => .error .value := by
  obtain ⟨⟨w₁, w₂, e, hw₁, hw₂⟩, hk, hkc, hv, hvc⟩ := ht
  have hinner : t.tail.dropLast = (w₁ ++ k ++ w₂) ++ ':' :: v := by
    rw [e]
    rw [List.tail_cons]
    have : w₁ ++ (k ++ (w₂ ++ ':' :: (v ++ [']']))) = ((w₁ ++ k ++ w₂) ++ ':' :: v) ++ [']'] := by simp
    rw [this, List.dropLast_concat]
  have hcol : ':' ∉ w₁ ++ k ++ w₂ := by
    simp only [List.mem_append, not_or]
    refine ⟨⟨?_, ?_⟩, ?_⟩
    · intro hm; have := hw₁ _ hm; rw [colon_not_space] at this; cases this
    · intro hm; have := hkc _ hm; rw [colon_not_name] at this; cases this
    · intro hm; have := hw₂ _ hm; rw [colon_not_space] at this; cases this
  have hcolv : ':' ∉ v := by
    intro hm; have := hvc _ hm; rw [colon_not_val] at this; cases this
  have hst : strip F (w₁ ++ k ++ w₂) = k :=
    strip_eq hw₁ hw₂ (trimmed_of_no_space (fun c hc => nameChar_not_space (hkc c hc)))
  unfold step
  simp only [hinner]
  rw [splitOn_append hcol, splitOn_no_sep hcolv]
  simp only [hst]
  split
  · rfl
  · split
    · rfl
    · unfold castNumber
      cases PyRt.fparse (F := F) (strip F v) <;> rfl

end

/-! ## C32 -/
variable (F : Type) [PyRt F]

/-- what the tags of a name mean: nothing, or one numeric scale -/
def TagsMean (ts : List (Str × Str)) (d : Dict F) : Prop :=
  (ts = [] ∧ d = []) ∨ ∃ v x, ts = [(s!!"scale", v)] ∧ PyRt.fparse (F := F) (strip F v) = some x ∧ d = [(s!!"scale", x)]

/-- the texts `l` are tags with the keys and values `ts` -/
inductive AllTags : List Str → List (Str × Str) → Prop
  | nil : AllTags [] []
  | cons {t p l ts} : IsTag F t p.1 p.2 → AllTags l ts → AllTags (t :: l) (p :: ts)

theorem findall_tagsOf {s : Str} {ts : List (Str × Str)} (h : TagsOf F s ts) :
    ∃ l, findall F s = l ∧ AllTags F l ts := by
  induction h with
  | none h => exact ⟨[], findall_none h, .nil⟩
  | some ha ht _ ih =>
    obtain ⟨l, h1, h2⟩ := ih
    exact ⟨_, findall_some ha ht, .cons ht (by rw [h1]; exact h2)⟩

/-- C32: for every name and its tags, the result is `{}` without tag, `{"scale": x}` for one numeric scale tag, and
`ValueError` in all other cases (other key, repeated key, non-numeric value). -/
theorem c32_tags_exact (s : Str) (ts : List (Str × Str)) (h : TagsOf F s ts) :
    (∀ d, getTags F s = .ok d ↔ TagsMean F ts d) ∧
      ((¬ ∃ d, TagsMean F ts d) → getTags F s = .error .value) := by
  obtain ⟨l, hl, hf⟩ := findall_tagsOf F h
  unfold getTags
  rw [hl]
  cases hf with
  | nil =>
    refine ⟨fun d => ?_, fun hn => absurd ⟨[], .inl ⟨rfl, rfl⟩⟩ hn⟩
    simp only [List.foldlM, TagsMean, pure, Except.pure, Except.ok.injEq, true_and]
    constructor
    · rintro rfl; exact .inl rfl
    · rintro (rfl | ⟨v, x, hn, _⟩)
      · rfl
      · cases hn
  | @cons t p l ts ht hf =>
    obtain ⟨k, v⟩ := p
    simp only at ht
    rw [List.foldlM_cons, step_eq ht]
    simp only [Dict.has, Dict.get?, Option.isSome_none, Bool.false_eq_true, if_false]
    by_cases hk : k = s!!"scale"
    · subst hk
      simp only [ne_eq, not_true, if_false]
      cases hx : PyRt.fparse (F := F) (strip F v) with
      | none =>
        simp only [bind, Except.bind]
        refine ⟨fun d => ?_, fun _ => trivial⟩
        constructor
        · intro h; cases h
        · rintro (⟨hn, _⟩ | ⟨v', x, hn, hp, _⟩)
          · cases hn
          · injection hn with h1 h2
            injection h1 with _ h1
            subst h1; rw [hx] at hp; cases hp
      | some x =>
        cases hf with
        | nil =>
          simp only [List.foldlM, bind, Except.bind, pure, Except.pure, Except.ok.injEq, Dict.set]
          refine ⟨fun d => ?_, fun hn => absurd ⟨_, .inr ⟨v, x, rfl, hx, rfl⟩⟩ hn⟩
          constructor
          · rintro rfl; exact .inr ⟨v, x, rfl, hx, rfl⟩
          · rintro (⟨hn, _⟩ | ⟨v', x', hn, hp, rfl⟩)
            · cases hn
            · injection hn with h1 h2
              injection h1 with _ h1
              subst h1; rw [hx] at hp; injection hp with hp; rw [hp]
        | @cons t' p' l' ts' ht' hf' =>
          obtain ⟨k', v'⟩ := p'
          simp only at ht'
          have e : (step F (Dict.set [] s!!"scale" x) t') = .error .value := by
            rw [step_eq ht']
            split
            · rfl
            · rename_i hh
              split
              · rfl
              · rename_i hk'
                simp only [ne_eq, Decidable.not_not] at hk'
                subst hk'
                exact absurd (by simp [Dict.set, Dict.has, Dict.get?]) hh
          simp only [List.foldlM_cons, bind, Except.bind, e]
          refine ⟨fun d => ?_, fun _ => by first | rfl | trivial⟩
          constructor
          · intro h; cases h
          · rintro (⟨hn, _⟩ | ⟨v', x', hn, hp, rfl⟩)
            · cases hn
            · injection hn with _ h2; cases h2
    · simp only [hk, ne_eq, not_false_eq_true, if_true, bind, Except.bind]
      refine ⟨fun d => ?_, fun _ => by first | rfl | trivial⟩
      constructor
      · intro h; cases h
      · rintro (⟨hn, _⟩ | ⟨v', x', hn, hp, rfl⟩)
        · cases hn
        · injection hn with h1 _
          injection h1 with h1 _
          exact absurd h1 hk

/-- C32: every name has a decomposition into tags, so that `c32_tags_exact` covers every name. -/
theorem c32_total (s : Str) : ∃ ts, TagsOf F s ts := tagsOf_exists s

/-- C32: a name without tag has no tags. -/
theorem c32_no_tag (s : Str) (h : ¬ ContainsTag F s) : getTags F s = .ok [] :=
  ((c32_tags_exact F s [] (.none h)).1 []).2 (.inl ⟨rfl, rfl⟩)

/-- C32: the decomposition is unique, so "the tags of a name" is well defined. -/
theorem c32_unique {s : Str} {ts us : List (Str × Str)} (h : TagsOf F s ts) (h' : TagsOf F s us) : ts = us := by
  obtain ⟨l, h1, h2⟩ := findall_tagsOf F h
  obtain ⟨m, h3, h4⟩ := findall_tagsOf F h'
  have : l = m := by rw [← h1, ← h3]
  subst this
  clear h h' h1 h3
  induction h2 generalizing us with
  | nil => cases h4; rfl
  | @cons t p l ts ht _ ih =>
    cases h4 with
    | @cons _ q _ us hq h4 =>
      rw [ih h4]
      congr 1
      -- key and value of a tag are determined by its text
      obtain ⟨k, v⟩ := p
      obtain ⟨k', v'⟩ := q
      simp only at ht hq
      obtain ⟨⟨w₁, w₂, e, hw₁, hw₂⟩, hk, hkc, hv, hvc⟩ := ht
      obtain ⟨⟨u₁, u₂, e', hu₁, hu₂⟩, hk', hkc', hv', hvc'⟩ := hq
      have key : ∀ w₁ w₂ k v : Str, t = '[' :: (w₁ ++ (k ++ (w₂ ++ ':' :: (v ++ [']'])))) → Blank F w₁ → Blank F w₂ →
          (∀ c ∈ k, nameChar F c = true) → (∀ c ∈ v, valChar F c = true) →
          splitOn ':' t.tail.dropLast = [w₁ ++ k ++ w₂, v] ∧ strip F (w₁ ++ k ++ w₂) = k := by
        intro w₁ w₂ k v e hw₁ hw₂ hkc hvc
        have hinner : t.tail.dropLast = (w₁ ++ k ++ w₂) ++ ':' :: v := by
          rw [e, List.tail_cons]
          have : w₁ ++ (k ++ (w₂ ++ ':' :: (v ++ [']']))) = ((w₁ ++ k ++ w₂) ++ ':' :: v) ++ [']'] := by simp
          rw [this, List.dropLast_concat]
        have hcol : ':' ∉ w₁ ++ k ++ w₂ := by
          simp only [List.mem_append, not_or]
          refine ⟨⟨?_, ?_⟩, ?_⟩
          · intro hm; have := hw₁ _ hm; rw [colon_not_space] at this; cases this
          · intro hm; have := hkc _ hm; rw [colon_not_name] at this; cases this
          · intro hm; have := hw₂ _ hm; rw [colon_not_space] at this; cases this
        have hcolv : ':' ∉ v := by
          intro hm; have := hvc _ hm; rw [colon_not_val] at this; cases this
        refine ⟨?_, strip_eq hw₁ hw₂ (trimmed_of_no_space (fun c hc => nameChar_not_space (hkc c hc)))⟩
        rw [hinner, splitOn_append hcol, splitOn_no_sep hcolv]
      have a := key _ _ _ _ e hw₁ hw₂ hkc hvc
      have b := key _ _ _ _ e' hu₁ hu₂ hkc' hvc'
      have c := a.1.symm.trans b.1
      simp only [List.cons.injEq, and_true] at c
      rw [← a.2, ← b.2, c.1, c.2]

/-- C32 for `get_scale_in_name`: the numeric value of the scale tag, 1.0 without tag, ValueError otherwise. -/
theorem c32_scale_in_name (s : Str) (ts : List (Str × Str)) (h : TagsOf F s ts) :
    (ts = [] → scaleInName F s = .ok PyRt.fone) ∧
    (∀ v x, ts = [(s!!"scale", v)] → PyRt.fparse (F := F) (strip F v) = some x → scaleInName F s = .ok x) ∧
    ((¬ ∃ d, TagsMean F ts d) → scaleInName F s = .error .value) := by
  have hc := c32_tags_exact F s ts h
  refine ⟨?_, ?_, ?_⟩
  · intro he
    unfold scaleInName
    rw [(hc.1 []).2 (.inl ⟨he, rfl⟩)]; rfl
  · intro v x he hx
    unfold scaleInName
    rw [(hc.1 _).2 (.inr ⟨v, x, he, hx, rfl⟩)]
    simp [bind, Except.bind, pure, Except.pure, Dict.get?]
  · intro hn
    unfold scaleInName
    rw [hc.2 hn]; rfl

example : getTags Rat s!!"arm" = .ok [] := by decide +kernel
example : getTags Rat s!!"arm[scale:2]" = .ok [(s!!"scale", 2)] := by decide +kernel
example : getTags Rat s!!"a [ scale : 0.5 ] b" = .ok [(s!!"scale", 1/2)] := by decide +kernel
example : getTags Rat s!!"[scale:2][scale:2]" = .error .value := by decide +kernel
example : getTags Rat s!!"[size:2]" = .error .value := by decide +kernel
example : getTags Rat s!!"[scale:big]" = .error .value := by decide +kernel
example : getTags Rat s!!"[scale:-1]" = .ok [] := by decide +kernel
/-- the hypotheses are met by a concrete name -/
example : IsTag Rat s!!"[ scale: 2 ]" s!!"scale" s!!" 2 " :=
  ⟨⟨s!!" ", [], by decide, by unfold Blank; decide, by unfold Blank; decide⟩, by decide, by decide, by decide, by decide⟩

end Spine.Tags
