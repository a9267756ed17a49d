import Verif.Lemmas.JsonScan
import Verif.Lemmas.Ids
/- The reader of JSON texts against the rules of Spec/JsonText.lean: values and documents. -/
set_option linter.unusedSectionVars false
namespace Spine.JsonText
open JsonSpec (IntPart Digits decimal intValue Frac Exp Chars Value Items Members Document Consts)
variable {F : Type} [JsonRt F]

/-- the constants of the reader -/
def consts : Consts F := ⟨JsonRt.fnan, JsonRt.finf, JsonRt.fninf⟩

/-- the characters that may follow a value -/
def Follow (r : Str) : Prop := ∀ c t, r = c :: t → c = ' ' ∨ c = '\t' ∨ c = '\n' ∨ c = '\r' ∨ c = ',' ∨ c = ']' ∨ c = '}'

theorem Follow.headNot {r : Str} (h : Follow r) (p : Char → Bool) (hp : ∀ c ∈ [' ', '\t', '\n', '\r', ',', ']', '}'], p c = false) : HeadNot p r :=
  fun c t e => hp c (by simpa using h c t e)

theorem Follow.blank_append {b r : Str} (hb : JsonSpec.Blank b) (hr : Follow r) : Follow (b ++ r) := by
  intro c t e
  cases b with
  | nil => exact hr c t e
  | cons d b =>
    injection e with e1; subst e1
    rcases hb d (by simp) with h | h | h | h <;> simp [h]

theorem Follow.nil : Follow [] := fun _ _ e => by cases e
theorem Follow.comma (r : Str) : Follow (',' :: r) := fun _ _ e => by injection e with e; simp [← e]
theorem Follow.square (r : Str) : Follow (']' :: r) := fun _ _ e => by injection e with e; simp [← e]
theorem Follow.brace (r : Str) : Follow ('}' :: r) := fun _ _ e => by injection e with e; simp [← e]

theorem headNot_cons {p : Char → Bool} {c : Char} {t : Str} (h : p c = false) : HeadNot p (c :: t) := fun _ _ e => by injection e with e; rw [← e]; exact h

theorem dropPrefix_head {c d : Char} (h : c ≠ d) (s p : Str) : dropPrefix? (c :: s) (d :: p) = none := by simp [dropPrefix?, h]

theorem intPart_head {s : Str} (h : IntPart s) : ∃ c u, s = c :: u ∧ (c = '-' ∨ ('0' ≤ c ∧ c ≤ '9')) := by
  cases h with
  | zero => exact ⟨_, _, rfl, .inr (by decide)⟩
  | pos h1 h2 h3 => exact ⟨_, _, rfl, .inr (digits_cons h1 h2 h3 _ (by simp))⟩
  | negZero => exact ⟨_, _, rfl, .inl rfl⟩
  | neg h1 h2 h3 => exact ⟨_, _, rfl, .inl rfl⟩

theorem frac_head {s r : Str} (h : Frac s) (p : Char → Bool) (hp : p '.' = false) : HeadNot p (s ++ r) := by
  obtain ⟨t, rfl, _, _⟩ := h
  exact headNot_cons hp

theorem exp_head {s r : Str} (h : Exp s) (p : Char → Bool) (hp : p 'e' = false) (hp' : p 'E' = false) : HeadNot p (s ++ r) := by
  obtain ⟨e, sg, t, rfl, he, _⟩ := h
  rcases he with rfl | rfl
  · exact headNot_cons hp
  · exact headNot_cons hp'

theorem scanAtom_num {ip fr ex r : Str} (hi : IntPart ip) (hf : fr = [] ∨ Frac fr) (he : ex = [] ∨ Exp ex) (hr : Follow r) :
    scanAtom (F := F) (ip ++ fr ++ ex ++ r) =
      if fr ≠ [] ∨ ex ≠ [] then
        match PyRt.fparse (ip ++ fr ++ ex) with
        | some f => .ok (.flt f, r)
        | none => .error .value
      else .ok (.int (intValue ip), r) := by
  have hd : HeadNot isDig r := hr.headNot _ (by decide)
  have h1 : HeadNot isDig (ex ++ r) := by
    rcases he with rfl | he
    · exact hd
    · exact exp_head he _ (by decide) (by decide)
  have h1' : HeadNot (· = '.') (ex ++ r) := by
    rcases he with rfl | he
    · exact hr.headNot _ (by decide)
    · exact exp_head he _ (by decide) (by decide)
  have h2 : HeadNot isDig (fr ++ (ex ++ r)) := by
    rcases hf with rfl | hf
    · exact h1
    · exact frac_head hf _ (by decide)
  have e1 : scanIntPart (ip ++ fr ++ ex ++ r) = some (ip, fr ++ (ex ++ r)) := by
    rw [List.append_assoc, List.append_assoc]; exact scanIntPart_complete hi h2
  have e2 : scanFrac (fr ++ (ex ++ r)) = (fr, ex ++ r) := by
    rcases hf with rfl | hf
    · exact scanFrac_nil h1'
    · exact scanFrac_complete hf h1
  have e3 : scanExp (ex ++ r) = (ex, r) := by
    rcases he with rfl | he
    · exact scanExp_nil (hr.headNot _ (by decide))
    · exact scanExp_complete he hd
  obtain ⟨c, u, rfl, hc⟩ := intPart_head hi
  have n1 : c ≠ 'n' := by rintro rfl; revert hc; decide
  have n2 : c ≠ 't' := by rintro rfl; revert hc; decide
  have n3 : c ≠ 'f' := by rintro rfl; revert hc; decide
  unfold scanAtom
  simp only [List.cons_append] at e1 ⊢
  simp only [dropPrefix_head n1, dropPrefix_head n2, dropPrefix_head n3, e1, e2, e3, pyInt_intPart (F := F) hi, List.cons_append]
  rfl

/-- the first character of a value -/
theorem value_head {parse : Str → Option F} {ext : Option (Consts F)} {s : Str} {v : JVal F} (h : Value parse ext s v) :
    ∃ c u, s = c :: u ∧ 32 < c.toNat ∧ c.toNat < 127 ∧ c ≠ ']' := by
  have key : ∀ {ip : Str} (t : Str), IntPart ip → ∃ c u, ip ++ t = c :: u ∧ 32 < c.toNat ∧ c.toNat < 127 ∧ c ≠ ']' := by
    intro ip t hi
    obtain ⟨c, u, rfl, hc⟩ := intPart_head hi
    refine ⟨c, u ++ t, rfl, ?_⟩
    rcases hc with rfl | ⟨h1, h2⟩
    · decide
    · rw [le_nat] at h1 h2
      have a1 : 48 ≤ c.toNat := h1
      have a2 : c.toNat ≤ 57 := h2
      refine ⟨by omega, by omega, ?_⟩
      rintro rfl
      exact absurd a2 (by decide)
  cases h with
  | int h => simpa using key [] h
  | flt h => rw [List.append_assoc]; exact key _ h
  | null | tt | ff | nan | inf | ninf | str | emptyList | list | emptyDict | dict => exact ⟨_, _, rfl, by decide, by decide, by decide⟩

theorem headNot_value {parse : Str → Option F} {ext : Option (Consts F)} {s : Str} {v : JVal F} (h : Value parse ext s v) (r : Str) :
    HeadNot isWs (s ++ r) := by
  obtain ⟨c, u, rfl, h1, -, -⟩ := value_head h
  refine headNot_cons ?_
  cases hc : isWs c with
  | false => rfl
  | true =>
    rcases (isWs_iff c).1 hc with rfl | rfl | rfl | rfl <;> exact absurd h1 (by decide)

theorem value_pos {parse : Str → Option F} {ext : Option (Consts F)} {s : Str} {v : JVal F} (h : Value parse ext s v) : 0 < s.length := by
  obtain ⟨c, u, rfl, -⟩ := value_head h; simp

/-! ### Every text that follows the rules is read, with its value -/

/-- reading a value that is neither a string nor a container -/
theorem scan_atom (n : Nat) {s : Str} (h : ∃ c u, s = c :: u ∧ c ≠ '"' ∧ c ≠ '{' ∧ c ≠ '[') : scan (F := F) (n + 1) s = scanAtom s := by
  obtain ⟨c, u, rfl, h1, h2, h3⟩ := h
  simp only [scan, if_neg h1, if_neg h2, if_neg h3]

theorem intPart_atom {ip : Str} (t : Str) (h : IntPart ip) : ∃ c u, ip ++ t = c :: u ∧ c ≠ '"' ∧ c ≠ '{' ∧ c ≠ '[' := by
  obtain ⟨c, u, rfl, hc⟩ := intPart_head h
  refine ⟨c, u ++ t, rfl, ?_, ?_, ?_⟩ <;> (rintro rfl; revert hc; decide)

theorem lit_atom {s u : Str} {c : Char} (h : s = c :: u) (hc : c ≠ '"' ∧ c ≠ '{' ∧ c ≠ '[') : ∃ c u, s = c :: u ∧ c ≠ '"' ∧ c ≠ '{' ∧ c ≠ '[' := ⟨c, u, h, hc⟩

mutual
theorem scan_complete {s : Str} {v : JVal F} (h : Value PyRt.fparse (some consts) s v) (n : Nat) (r : Str) (hr : Follow r) (hn : 2 * s.length ≤ n) :
    scan n (s ++ r) = .ok (v, r) := by
  have hp := value_pos h
  obtain ⟨m, rfl⟩ : ∃ m, n = m + 1 := ⟨n - 1, by omega⟩
  match h with
  | .null => exact (scan_atom m (lit_atom rfl (by decide))).trans (by simp [scanAtom, dropPrefix?])
  | .tt => exact (scan_atom m (lit_atom rfl (by decide))).trans (by simp [scanAtom, dropPrefix?])
  | .ff => exact (scan_atom m (lit_atom rfl (by decide))).trans (by simp [scanAtom, dropPrefix?])
  | .int hi =>
    rw [scan_atom m (intPart_atom r hi)]
    have := scanAtom_num (F := F) (fr := []) (ex := []) hi (.inl rfl) (.inl rfl) hr
    simpa using this
  | .flt hi hf he hx hv =>
    rw [scan_atom m (by rw [List.append_assoc, List.append_assoc]; exact intPart_atom _ hi), scanAtom_num hi hf he hr, if_pos hx, hv]
  | .nan hc => injection hc with hc; subst hc; exact (scan_atom m (lit_atom rfl (by decide))).trans (by simp [scanAtom, dropPrefix?, scanIntPart, scanMinus, consts])
  | .inf hc => injection hc with hc; subst hc; exact (scan_atom m (lit_atom rfl (by decide))).trans (by simp [scanAtom, dropPrefix?, scanIntPart, scanMinus, consts])
  | .ninf hc => injection hc with hc; subst hc; exact (scan_atom m (lit_atom rfl (by decide))).trans (by simp [scanAtom, dropPrefix?, scanIntPart, scanMinus, consts])
  | .str hs =>
    simp only [List.cons_append, List.append_assoc, List.nil_append, scan, if_true]
    rw [scanString_complete hs _ r (by simp; omega)]
  | .emptyList hb =>
    simp only [List.cons_append, List.append_assoc, List.nil_append, scan]
    rw [skipWs_append hb (headNot_cons (by decide))]
    rfl
  | .list (b := b) (s := t) (l := l) hb hi =>
    have hl := items_complete hi m r (by simp at hn; omega)
    have hw : HeadNot isWs (t ++ ']' :: r) := by
      cases hi with
      | one hv _ => rw [List.append_assoc]; exact headNot_value hv _
      | cons hv _ _ _ => rw [List.append_assoc, List.append_assoc]; exact headNot_value hv _
    have hq : ∃ c u, t ++ ']' :: r = c :: u ∧ c ≠ ']' := by
      cases hi with
      | one hv _ => obtain ⟨c, u, rfl, -, -, h⟩ := value_head hv; exact ⟨_, _, rfl, h⟩
      | cons hv _ _ _ => obtain ⟨c, u, rfl, -, -, h⟩ := value_head hv; exact ⟨_, _, rfl, h⟩
    obtain ⟨c, u, hq, hc⟩ := hq
    simp only [List.cons_append, List.append_assoc, List.nil_append, scan]
    rw [skipWs_append hb hw]
    rw [hq] at hl ⊢
    simp [hc, hl]
  | .emptyDict hb =>
    simp only [List.cons_append, List.append_assoc, List.nil_append, scan]
    rw [skipWs_append hb (headNot_cons (by decide))]
    rfl
  | .dict (b := b) (s := t) (l := l) hb hi =>
    have hl := members_complete hi m r (by simp at hn; omega)
    obtain ⟨u, rfl, hl⟩ := hl
    simp only [List.cons_append, List.append_assoc, List.nil_append, scan]
    rw [skipWs_append hb (headNot_cons (by decide))]
    simp [hl, ofPairs, JsonSpec.object]
theorem items_complete {s : Str} {l : List (JVal F)} (h : Items PyRt.fparse (some consts) s l) (n : Nat) (r : Str) (hn : 2 * s.length + 1 ≤ n) :
    scanItems n (s ++ ']' :: r) = .ok (l, r) := by
  obtain ⟨m, rfl⟩ : ∃ m, n = m + 1 := ⟨n - 1, by omega⟩
  match h with
  | .one hv hb =>
    have := scan_complete hv m _ (Follow.blank_append hb (Follow.square r)) (by simp at hn; omega)
    simp only [List.append_assoc, scanItems, this]
    rw [skipWs_append hb (headNot_cons (by decide))]
    rfl
  | .cons (b' := b') (t := t) hv hb hb' hi =>
    have h1 := scan_complete hv m _ (Follow.blank_append hb (Follow.comma (b' ++ (t ++ ']' :: r)))) (by simp at hn; omega)
    have h2 := items_complete hi m r (by simp at hn; omega)
    have hw : HeadNot isWs (t ++ ']' :: r) := by
      cases hi with
      | one hv _ => rw [List.append_assoc]; exact headNot_value hv _
      | cons hv _ _ _ => rw [List.append_assoc, List.append_assoc]; exact headNot_value hv _
    simp only [List.append_assoc, List.cons_append, scanItems, h1]
    rw [skipWs_append hb (headNot_cons (by decide))]
    simp only
    rw [skipWs_append hb' hw, h2]
theorem members_complete {s : Str} {l : List (Str × JVal F)} (h : Members PyRt.fparse (some consts) s l) (n : Nat) (r : Str) (hn : 2 * s.length + 1 ≤ n) :
    ∃ u, s = '"' :: u ∧ scanMembers n (u ++ '}' :: r) = .ok (l, r) := by
  obtain ⟨m, rfl⟩ : ∃ m, n = m + 1 := ⟨n - 1, by omega⟩
  match h with
  | .one hk hb1 hb2 hv hb3 =>
    refine ⟨_, rfl, ?_⟩
    have h1 := scan_complete hv m _ (Follow.blank_append hb3 (Follow.brace r)) (by simp at hn; omega)
    simp only [List.append_assoc, List.cons_append, scanMembers]
    rw [scanString_complete hk _ _ (by simp; omega)]
    simp only
    rw [skipWs_append hb1 (headNot_cons (by decide))]
    simp only
    rw [skipWs_append hb2 (headNot_value hv _), h1]
    simp only
    rw [skipWs_append hb3 (headNot_cons (by decide))]
    rfl
  | .cons (b4 := b4) (t := t) hk hb1 hb2 hv hb3 hb4 hm =>
    refine ⟨_, rfl, ?_⟩
    obtain ⟨u, rfl, h2⟩ := members_complete hm m r (by simp at hn; omega)
    have h1 := scan_complete hv m _ (Follow.blank_append hb3 (Follow.comma (b4 ++ '"' :: (u ++ '}' :: r)))) (by simp at hn; omega)
    simp only [List.append_assoc, List.cons_append, scanMembers]
    rw [scanString_complete hk _ _ (by simp; omega)]
    simp only
    rw [skipWs_append hb1 (headNot_cons (by decide))]
    simp only
    rw [skipWs_append hb2 (headNot_value hv _), h1]
    simp only
    rw [skipWs_append hb3 (headNot_cons (by decide))]
    simp only
    rw [skipWs_append hb4 (headNot_cons (by decide))]
    simp only [h2]
end

/-! ### Everything that is read follows the rules -/

theorem scanAtom_sound {s r : Str} {v : JVal F} (h : scanAtom s = .ok (v, r)) : ∃ t, Value PyRt.fparse (some consts) t v ∧ s = t ++ r := by
  unfold scanAtom at h
  split at h
  · rename_i hd
    injection h with h; injection h with h1 h2; subst h1 h2
    exact ⟨_, .null, (dropPrefix?_iff _ _ _).1 hd⟩
  split at h
  · rename_i hd
    injection h with h; injection h with h1 h2; subst h1 h2
    exact ⟨_, .tt, (dropPrefix?_iff _ _ _).1 hd⟩
  split at h
  · rename_i hd
    injection h with h; injection h with h1 h2; subst h1 h2
    exact ⟨_, .ff, (dropPrefix?_iff _ _ _).1 hd⟩
  split at h
  · rename_i ip r1 hi
    obtain ⟨hip, e1⟩ := scanIntPart_sound hi
    obtain ⟨hf, e2⟩ := scanFrac_sound r1
    obtain ⟨he, e3⟩ := scanExp_sound (scanFrac r1).2
    simp only at h
    split at h
    · rename_i hx
      split at h
      · rename_i f hv
        injection h with h; injection h with h1 h2; subst h1 h2
        refine ⟨_, .flt hip hf he hx hv, ?_⟩
        rw [List.append_assoc, List.append_assoc, ← e3, ← e2]; exact e1
      · cases h
    · rename_i hx
      rw [pyInt_intPart (F := F) hip] at h
      injection h with h; injection h with h1 h2; subst h1 h2
      refine ⟨_, .int hip, ?_⟩
      simp only [not_or, Decidable.not_not] at hx
      rw [hx.1, List.nil_append] at e2
      rw [hx.2, List.nil_append] at e3
      rw [← e3, ← e2]; exact e1
  split at h
  · rename_i hd
    injection h with h; injection h with h1 h2; subst h1 h2
    exact ⟨_, .nan rfl, (dropPrefix?_iff _ _ _).1 hd⟩
  split at h
  · rename_i hd
    injection h with h; injection h with h1 h2; subst h1 h2
    exact ⟨_, .inf rfl, (dropPrefix?_iff _ _ _).1 hd⟩
  split at h
  · rename_i hd
    injection h with h; injection h with h1 h2; subst h1 h2
    exact ⟨_, .ninf rfl, (dropPrefix?_iff _ _ _).1 hd⟩
  · cases h

theorem sound (n : Nat) :
    (∀ (s r : Str) (v : JVal F), scan n s = .ok (v, r) → ∃ t, Value PyRt.fparse (some consts) t v ∧ s = t ++ r) ∧
    (∀ (s r : Str) (l : List (JVal F)), scanItems n s = .ok (l, r) → ∃ t, Items PyRt.fparse (some consts) t l ∧ s = t ++ ']' :: r) ∧
    (∀ (s r : Str) (l : List (Str × JVal F)), scanMembers n s = .ok (l, r) →
      ∃ t, Members PyRt.fparse (some consts) ('"' :: t) l ∧ s = t ++ '}' :: r) := by
  induction n with
  | zero => exact ⟨fun _ _ _ h => by simp [scan] at h, fun _ _ _ h => by simp [scanItems] at h, fun _ _ _ h => by simp [scanMembers] at h⟩
  | succ n ih =>
    obtain ⟨ih1, ih2, ih3⟩ := ih
    refine ⟨?_, ?_, ?_⟩
    · intro s r v h
      cases s with
      | nil => simp [scan] at h
      | cons c s =>
        simp only [scan] at h
        split at h
        · rename_i hc
          subst hc
          split at h
          · cases h
          · rename_i u r1 hs
            injection h with h; injection h with h1 h2; subst h1 h2
            obtain ⟨t, ht, e⟩ := scanString_sound _ _ _ _ hs
            exact ⟨_, .str ht, by rw [e]; simp⟩
        split at h
        · rename_i hc
          subst hc
          obtain ⟨b, hb, eb, -⟩ := skipWs_spec s
          split at h
          · rename_i r1 hw
            injection h with h; injection h with h1 h2; subst h1 h2
            exact ⟨_, .emptyDict hb, by rw [eb, hw]; simp⟩
          · rename_i r1 hw
            split at h
            · cases h
            · rename_i l r2 hm
              injection h with h; injection h with h1 h2; subst h1 h2
              obtain ⟨t, ht, e⟩ := ih3 _ _ _ hm
              exact ⟨_, .dict hb ht, by rw [eb, hw, e]; simp⟩
          · cases h
        split at h
        · rename_i hc
          subst hc
          obtain ⟨b, hb, eb, -⟩ := skipWs_spec s
          split at h
          · rename_i r1 hw
            injection h with h; injection h with h1 h2; subst h1 h2
            exact ⟨_, .emptyList hb, by rw [eb, hw]; simp⟩
          · split at h
            · cases h
            · rename_i l r2 hm
              injection h with h; injection h with h1 h2; subst h1 h2
              obtain ⟨t, ht, e⟩ := ih2 _ _ _ hm
              exact ⟨_, .list hb ht, by rw [eb, e]; simp⟩
        · exact scanAtom_sound h
    · intro s r l h
      simp only [scanItems] at h
      split at h
      · cases h
      · rename_i v r1 hv
        obtain ⟨t, ht, e⟩ := ih1 _ _ _ hv
        obtain ⟨b, hb, eb, -⟩ := skipWs_spec r1
        split at h
        · rename_i r2 hw
          injection h with h; injection h with h1 h2; subst h1 h2
          exact ⟨_, .one ht hb, by rw [e, eb, hw]; simp⟩
        · rename_i r2 hw
          obtain ⟨b', hb', eb', -⟩ := skipWs_spec r2
          split at h
          · cases h
          · rename_i l r3 hm
            injection h with h; injection h with h1 h2; subst h1 h2
            obtain ⟨t', ht', e'⟩ := ih2 _ _ _ hm
            exact ⟨_, .cons ht hb hb' ht', by rw [e, eb, hw, eb', e']; simp⟩
        · cases h
    · intro s r l h
      simp only [scanMembers] at h
      split at h
      · cases h
      · rename_i k r1 hk
        obtain ⟨kt, hkt, ek⟩ := scanString_sound _ _ _ _ hk
        obtain ⟨b1, hb1, eb1, -⟩ := skipWs_spec r1
        split at h
        · rename_i r2 hw
          obtain ⟨b2, hb2, eb2, -⟩ := skipWs_spec r2
          split at h
          · cases h
          · rename_i v r3 hv
            obtain ⟨t, ht, e⟩ := ih1 _ _ _ hv
            obtain ⟨b3, hb3, eb3, -⟩ := skipWs_spec r3
            split at h
            · rename_i r4 hw3
              injection h with h; injection h with h1 h2; subst h1 h2
              exact ⟨_, .one hkt hb1 hb2 ht hb3, by rw [ek, eb1, hw, eb2, e, eb3, hw3]; simp⟩
            · rename_i r4 hw3
              obtain ⟨b4, hb4, eb4, -⟩ := skipWs_spec r4
              split at h
              · rename_i r5 hw4
                split at h
                · cases h
                · rename_i l r6 hm
                  injection h with h; injection h with h1 h2; subst h1 h2
                  obtain ⟨t', ht', e'⟩ := ih3 _ _ _ hm
                  exact ⟨_, .cons hkt hb1 hb2 ht hb3 hb4 ht', by rw [ek, eb1, hw, eb2, e, eb3, hw3, eb4, hw4, e']; simp⟩
              · cases h
            · cases h
        · cases h

/-! ### Reading ends -/

theorem skipWs_length (s : Str) : (skipWs s).length ≤ s.length := by
  obtain ⟨b, -, e, -⟩ := skipWs_spec s
  have := congrArg List.length e
  rw [List.length_append] at this
  omega

theorem scanAtom_ends (s : Str) : scanAtom (F := F) s ≠ .error .diverge := by
  unfold scanAtom
  intro h
  simp only at h
  repeat' split at h
  all_goals cases h

theorem ends (n : Nat) :
    (∀ (s : Str), 2 * s.length + 1 ≤ n → scan (F := F) n s ≠ .error .diverge) ∧
    (∀ (s : Str), 2 * s.length + 2 ≤ n → scanItems (F := F) n s ≠ .error .diverge) ∧
    (∀ (s : Str), 2 * s.length + 2 ≤ n → scanMembers (F := F) n s ≠ .error .diverge) := by
  induction n with
  | zero => exact ⟨fun _ h => by omega, fun _ h => by omega, fun _ h => by omega⟩
  | succ n ih =>
    obtain ⟨ih1, ih2, ih3⟩ := ih
    refine ⟨?_, ?_, ?_⟩
    · intro s hn h
      cases s with
      | nil => simp [scan] at h
      | cons c s =>
        simp only [List.length_cons] at hn
        have hw := skipWs_length s
        simp only [scan] at h
        split at h
        · split at h
          · rename_i e hs; injection h with h; subst h; exact scanString_fuel _ _ (by omega) hs
          · cases h
        split at h
        · split at h
          · cases h
          · rename_i r1 hq
            rw [hq, List.length_cons] at hw
            split at h
            · rename_i e hs; injection h with h; subst h; exact ih3 _ (by omega) hs
            · cases h
          · cases h
        split at h
        · split at h
          · cases h
          · split at h
            · rename_i e hs; injection h with h; subst h; exact ih2 _ (by omega) hs
            · cases h
        · exact scanAtom_ends _ h
    · intro s hn h
      simp only [scanItems] at h
      split at h
      · rename_i e hs; injection h with h; subst h; exact ih1 _ (by omega) hs
      · rename_i v r1 hv
        obtain ⟨t, ht, e⟩ := (sound n).1 _ _ _ hv
        have hl := congrArg List.length e
        rw [List.length_append] at hl
        have := value_pos ht
        have hw := skipWs_length r1
        split at h
        · cases h
        · rename_i r2 hq
          rw [hq, List.length_cons] at hw
          have hw2 := skipWs_length r2
          split at h
          · rename_i e hs; injection h with h; subst h; exact ih2 _ (by omega) hs
          · cases h
        · cases h
    · intro s hn h
      simp only [scanMembers] at h
      split at h
      · rename_i e hs; injection h with h; subst h; exact scanString_fuel _ _ (by omega) hs
      · rename_i k r0 hk
        obtain ⟨kt, hkt, ek⟩ := scanString_sound _ _ _ _ hk
        have hl0 := congrArg List.length ek
        rw [List.length_append, List.length_cons] at hl0
        have hw0 := skipWs_length r0
        split at h
        · rename_i r1 hq1
          rw [hq1, List.length_cons] at hw0
          have hw1 := skipWs_length r1
          split at h
          · rename_i e hs; injection h with h; subst h; exact ih1 _ (by omega) hs
          · rename_i v r3 hv
            obtain ⟨t, ht, e⟩ := (sound n).1 _ _ _ hv
            have hl := congrArg List.length e
            rw [List.length_append] at hl
            have hw3 := skipWs_length r3
            split at h
            · cases h
            · rename_i r4 hq4
              rw [hq4, List.length_cons] at hw3
              have hw4 := skipWs_length r4
              split at h
              · rename_i r5 hq5
                rw [hq5, List.length_cons] at hw4
                split at h
                · rename_i e hs; injection h with h; subst h; exact ih3 _ (by omega) hs
                · cases h
              · cases h
            · cases h
        · cases h

/-! ### Documents -/

theorem skipWs_blank {b : Str} (h : JsonSpec.Blank b) : skipWs b = [] := by
  have := skipWs_append (r := []) h (fun _ _ e => by cases e)
  simpa using this

theorem blank_of_skipWs {b : Str} (h : skipWs b = []) : JsonSpec.Blank b := by
  obtain ⟨a, ha, e, -⟩ := skipWs_spec b
  rw [h, List.append_nil] at e
  rw [e]; exact ha

theorem decode_iff (s : Str) (v : JVal F) : decode s = .ok v ↔ Document PyRt.fparse (some consts) s v := by
  constructor
  · intro h
    unfold decode at h
    split at h
    · rename_i c r
      split at h
      · cases h
      · split at h
        · cases h
        · rename_i v' r' hs
          split at h
          · rename_i hw
            injection h with h; subst h
            obtain ⟨t, ht, e⟩ := (sound _).1 _ _ _ hs
            obtain ⟨a, ha, ea, -⟩ := skipWs_spec (c :: r)
            exact ⟨a, t, r', by rw [ea, e]; simp, ha, ht, blank_of_skipWs hw⟩
          · cases h
    · cases h
  · rintro ⟨a, t, b, rfl, ha, ht, hb⟩
    have hne : ∃ c r, a ++ t ++ b = c :: r ∧ c.toNat ≠ 0xfeff := by
      cases a with
      | nil =>
        obtain ⟨c, u, rfl, -, h, -⟩ := value_head ht
        exact ⟨_, _, rfl, by omega⟩
      | cons c a =>
        refine ⟨_, _, rfl, ?_⟩
        rcases ha c (by simp) with rfl | rfl | rfl | rfl <;> decide
    obtain ⟨c, r, e, hc⟩ := hne
    rw [e]
    simp only [decode, if_neg hc]
    have hs : skipWs (c :: r) = t ++ b := by
      rw [← e, List.append_assoc]
      exact skipWs_append ha (headNot_value ht b)
    have hl := congrArg List.length e
    simp only [List.length_append] at hl
    rw [hs, scan_complete ht _ b (by simpa using Follow.blank_append hb Follow.nil) (by omega)]
    simp only [skipWs_blank hb, if_true]

theorem decode_ends (s : Str) : decode (F := F) s ≠ .error .diverge := by
  intro h
  unfold decode at h
  split at h
  · rename_i c r
    have hw := skipWs_length (c :: r)
    split at h
    · cases h
    · split at h
      · rename_i e hs; injection h with h; subst h; exact (ends _).1 _ (by omega) hs
      · split at h <;> cases h
  · cases h

end Spine.JsonText
