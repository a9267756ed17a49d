import Verif.Model.Digits
import Verif.Spec.Digits
import Verif.Lemmas.JsonText
import Verif.Lemmas.JsonEncode
/- The reader with a limit of digits against the rules of Spec/Digits.lean.  The proofs are those of Lemmas/JsonText.lean and
Lemmas/JsonEncode.lean with one more case for integers. -/
set_option linter.unusedSectionVars false
namespace Spine.Digits
open JsonSpec (IntPart intValue Frac Exp Chars Consts object)
open DigitSpec
open JsonText hiding scanAtom scan scanItems scanMembers decode scanAtom_num scan_atom scan_complete items_complete members_complete scanAtom_sound sound decode_iff encodeAt_value encodeMore_items encodeMembers_members encodeFloat_value encode_document
variable {F : Type} [JsonRt F] {L : Nat}

theorem digits_eq (s : Str) : digits s = digitCount s := rfl

mutual
theorem _root_.Spine.DigitSpec.Value.free {parse : Str → Option F} {ext : Option (Consts F)} {s : Str} {v : JVal F} (h : Value L parse ext s v) :
    JsonSpec.Value parse ext s v := by
  match h with
  | .null => exact .null
  | .tt => exact .tt
  | .ff => exact .ff
  | .int h _ => exact .int h
  | .flt a b c d e => exact .flt a b c d e
  | .nan h => exact .nan h
  | .inf h => exact .inf h
  | .ninf h => exact .ninf h
  | .str h => exact .str h
  | .emptyList h => exact .emptyList h
  | .list h i => exact .list h i.free
  | .emptyDict h => exact .emptyDict h
  | .dict h i => exact .dict h i.free
theorem _root_.Spine.DigitSpec.Items.free {parse : Str → Option F} {ext : Option (Consts F)} {s : Str} {v : List (JVal F)} (h : Items L parse ext s v) :
    JsonSpec.Items parse ext s v := by
  match h with
  | .one a b => exact .one a.free b
  | .cons a b c d => exact .cons a.free b c d.free
theorem _root_.Spine.DigitSpec.Members.free {parse : Str → Option F} {ext : Option (Consts F)} {s : Str} {v : List (Str × JVal F)} (h : Members L parse ext s v) :
    JsonSpec.Members parse ext s v := by
  match h with
  | .one a b c d e => exact .one a b c d.free e
  | .cons a b c d e f g => exact .cons a b c d.free e f g.free
end

theorem scanAtom_num {ip fr ex r : Str} (hi : IntPart ip) (hf : fr = [] ∨ Frac fr) (he : ex = [] ∨ Exp ex) (hr : Follow r) :
    scanAtom (F := F) L (ip ++ fr ++ ex ++ r) =
      if fr ≠ [] ∨ ex ≠ [] then
        match PyRt.fparse (ip ++ fr ++ ex) with
        | some f => .ok (.flt f, r)
        | none => .error .value
      else if L < digits ip then .error .value else .ok (.int (intValue ip), r) := by
  have hd : HeadNot isDig r := hr.headNot _ (by decide)
  have h1 : HeadNot isDig (ex ++ r) := by
    rcases he with rfl | he
    · exact hd
    · exact exp_head he _ (by decide) (by decide)
  have h1' : HeadNot (· = '.') (ex ++ r) := by
    rcases he with rfl | he
    · exact hr.headNot _ (by decide)
    · exact exp_head he _ (by decide) (by decide)
  have h2 : HeadNot isDig (fr ++ (ex ++ r)) := by
    rcases hf with rfl | hf
    · exact h1
    · exact frac_head hf _ (by decide)
  have e1 : scanIntPart (ip ++ fr ++ ex ++ r) = some (ip, fr ++ (ex ++ r)) := by
    rw [List.append_assoc, List.append_assoc]; exact scanIntPart_complete hi h2
  have e2 : scanFrac (fr ++ (ex ++ r)) = (fr, ex ++ r) := by
    rcases hf with rfl | hf
    · exact scanFrac_nil h1'
    · exact scanFrac_complete hf h1
  have e3 : scanExp (ex ++ r) = (ex, r) := by
    rcases he with rfl | he
    · exact scanExp_nil (hr.headNot _ (by decide))
    · exact scanExp_complete he hd
  obtain ⟨c, u, rfl, hc⟩ := intPart_head hi
  have n1 : c ≠ 'n' := by rintro rfl; revert hc; decide
  have n2 : c ≠ 't' := by rintro rfl; revert hc; decide
  have n3 : c ≠ 'f' := by rintro rfl; revert hc; decide
  unfold scanAtom
  simp only [List.cons_append] at e1 ⊢
  simp only [dropPrefix_head n1, dropPrefix_head n2, dropPrefix_head n3, e1, e2, e3, pyInt_intPart (F := F) hi, List.cons_append]
  rfl

/-- reading a value that is neither a string nor a container -/
theorem scan_atom (n : Nat) {s : Str} (h : ∃ c u, s = c :: u ∧ c ≠ '"' ∧ c ≠ '{' ∧ c ≠ '[') : scan (F := F) L (n + 1) s = scanAtom L s := by
  obtain ⟨c, u, rfl, h1, h2, h3⟩ := h
  simp only [scan, if_neg h1, if_neg h2, if_neg h3]

mutual
theorem scan_complete {s : Str} {v : JVal F} (h : Value L PyRt.fparse (some consts) s v) (n : Nat) (r : Str) (hr : Follow r) (hn : 2 * s.length ≤ n) :
    scan L n (s ++ r) = .ok (v, r) := by
  have hp := value_pos h.free
  obtain ⟨m, rfl⟩ : ∃ m, n = m + 1 := ⟨n - 1, by omega⟩
  match h with
  | .null => exact (scan_atom m (lit_atom rfl (by decide))).trans (by simp [scanAtom, dropPrefix?])
  | .tt => exact (scan_atom m (lit_atom rfl (by decide))).trans (by simp [scanAtom, dropPrefix?])
  | .ff => exact (scan_atom m (lit_atom rfl (by decide))).trans (by simp [scanAtom, dropPrefix?])
  | .int hi hd =>
    rw [scan_atom m (intPart_atom r hi)]
    have := scanAtom_num (F := F) (L := L) (fr := []) (ex := []) hi (.inl rfl) (.inl rfl) hr
    simpa [show ¬ L < digits s from Nat.not_lt.2 hd] using this
  | .flt hi hf he hx hv =>
    rw [scan_atom m (by rw [List.append_assoc, List.append_assoc]; exact intPart_atom _ hi), scanAtom_num hi hf he hr, if_pos hx, hv]
  | .nan hc => injection hc with hc; subst hc; exact (scan_atom m (lit_atom rfl (by decide))).trans (by simp [scanAtom, dropPrefix?, scanIntPart, scanMinus, consts])
  | .inf hc => injection hc with hc; subst hc; exact (scan_atom m (lit_atom rfl (by decide))).trans (by simp [scanAtom, dropPrefix?, scanIntPart, scanMinus, consts])
  | .ninf hc => injection hc with hc; subst hc; exact (scan_atom m (lit_atom rfl (by decide))).trans (by simp [scanAtom, dropPrefix?, scanIntPart, scanMinus, consts])
  | .str hs =>
    simp only [List.cons_append, List.append_assoc, List.nil_append, scan, if_true]
    rw [scanString_complete hs _ r (by simp; omega)]
  | .emptyList hb =>
    simp only [List.cons_append, List.append_assoc, List.nil_append, scan]
    rw [skipWs_append hb (headNot_cons (by decide))]
    rfl
  | .list (b := b) (s := t) (l := l) hb hi =>
    have hl := items_complete hi m r (by simp at hn; omega)
    have hw : HeadNot isWs (t ++ ']' :: r) := by
      cases hi with
      | one hv _ => rw [List.append_assoc]; exact headNot_value hv.free _
      | cons hv _ _ _ => rw [List.append_assoc, List.append_assoc]; exact headNot_value hv.free _
    have hq : ∃ c u, t ++ ']' :: r = c :: u ∧ c ≠ ']' := by
      cases hi with
      | one hv _ => obtain ⟨c, u, rfl, -, -, h⟩ := value_head hv.free; exact ⟨_, _, rfl, h⟩
      | cons hv _ _ _ => obtain ⟨c, u, rfl, -, -, h⟩ := value_head hv.free; exact ⟨_, _, rfl, h⟩
    obtain ⟨c, u, hq, hc⟩ := hq
    simp only [List.cons_append, List.append_assoc, List.nil_append, scan]
    rw [skipWs_append hb hw]
    rw [hq] at hl ⊢
    simp [hc, hl]
  | .emptyDict hb =>
    simp only [List.cons_append, List.append_assoc, List.nil_append, scan]
    rw [skipWs_append hb (headNot_cons (by decide))]
    rfl
  | .dict (b := b) (s := t) (l := l) hb hi =>
    have hl := members_complete hi m r (by simp at hn; omega)
    obtain ⟨u, rfl, hl⟩ := hl
    simp only [List.cons_append, List.append_assoc, List.nil_append, scan]
    rw [skipWs_append hb (headNot_cons (by decide))]
    simp [hl, ofPairs, JsonSpec.object]
theorem items_complete {s : Str} {l : List (JVal F)} (h : Items L PyRt.fparse (some consts) s l) (n : Nat) (r : Str) (hn : 2 * s.length + 1 ≤ n) :
    scanItems L n (s ++ ']' :: r) = .ok (l, r) := by
  obtain ⟨m, rfl⟩ : ∃ m, n = m + 1 := ⟨n - 1, by omega⟩
  match h with
  | .one hv hb =>
    have := scan_complete hv m _ (Follow.blank_append hb (Follow.square r)) (by simp at hn; omega)
    simp only [List.append_assoc, scanItems, this]
    rw [skipWs_append hb (headNot_cons (by decide))]
    rfl
  | .cons (b' := b') (t := t) hv hb hb' hi =>
    have h1 := scan_complete hv m _ (Follow.blank_append hb (Follow.comma (b' ++ (t ++ ']' :: r)))) (by simp at hn; omega)
    have h2 := items_complete hi m r (by simp at hn; omega)
    have hw : HeadNot isWs (t ++ ']' :: r) := by
      cases hi with
      | one hv _ => rw [List.append_assoc]; exact headNot_value hv.free _
      | cons hv _ _ _ => rw [List.append_assoc, List.append_assoc]; exact headNot_value hv.free _
    simp only [List.append_assoc, List.cons_append, scanItems, h1]
    rw [skipWs_append hb (headNot_cons (by decide))]
    simp only
    rw [skipWs_append hb' hw, h2]
theorem members_complete {s : Str} {l : List (Str × JVal F)} (h : Members L PyRt.fparse (some consts) s l) (n : Nat) (r : Str) (hn : 2 * s.length + 1 ≤ n) :
    ∃ u, s = '"' :: u ∧ scanMembers L n (u ++ '}' :: r) = .ok (l, r) := by
  obtain ⟨m, rfl⟩ : ∃ m, n = m + 1 := ⟨n - 1, by omega⟩
  match h with
  | .one hk hb1 hb2 hv hb3 =>
    refine ⟨_, rfl, ?_⟩
    have h1 := scan_complete hv m _ (Follow.blank_append hb3 (Follow.brace r)) (by simp at hn; omega)
    simp only [List.append_assoc, List.cons_append, scanMembers]
    rw [scanString_complete hk _ _ (by simp; omega)]
    simp only
    rw [skipWs_append hb1 (headNot_cons (by decide))]
    simp only
    rw [skipWs_append hb2 (headNot_value hv.free _), h1]
    simp only
    rw [skipWs_append hb3 (headNot_cons (by decide))]
    rfl
  | .cons (b4 := b4) (t := t) hk hb1 hb2 hv hb3 hb4 hm =>
    refine ⟨_, rfl, ?_⟩
    obtain ⟨u, rfl, h2⟩ := members_complete hm m r (by simp at hn; omega)
    have h1 := scan_complete hv m _ (Follow.blank_append hb3 (Follow.comma (b4 ++ '"' :: (u ++ '}' :: r)))) (by simp at hn; omega)
    simp only [List.append_assoc, List.cons_append, scanMembers]
    rw [scanString_complete hk _ _ (by simp; omega)]
    simp only
    rw [skipWs_append hb1 (headNot_cons (by decide))]
    simp only
    rw [skipWs_append hb2 (headNot_value hv.free _), h1]
    simp only
    rw [skipWs_append hb3 (headNot_cons (by decide))]
    simp only
    rw [skipWs_append hb4 (headNot_cons (by decide))]
    simp only [h2]
end

theorem scanAtom_sound {s r : Str} {v : JVal F} (h : scanAtom L s = .ok (v, r)) : ∃ t, Value L PyRt.fparse (some consts) t v ∧ s = t ++ r := by
  unfold scanAtom at h
  split at h
  · rename_i hd
    injection h with h; injection h with h1 h2; subst h1 h2
    exact ⟨_, .null, (dropPrefix?_iff _ _ _).1 hd⟩
  split at h
  · rename_i hd
    injection h with h; injection h with h1 h2; subst h1 h2
    exact ⟨_, .tt, (dropPrefix?_iff _ _ _).1 hd⟩
  split at h
  · rename_i hd
    injection h with h; injection h with h1 h2; subst h1 h2
    exact ⟨_, .ff, (dropPrefix?_iff _ _ _).1 hd⟩
  split at h
  · rename_i ip r1 hi
    obtain ⟨hip, e1⟩ := scanIntPart_sound hi
    obtain ⟨hf, e2⟩ := scanFrac_sound r1
    obtain ⟨he, e3⟩ := scanExp_sound (scanFrac r1).2
    simp only at h
    split at h
    · rename_i hx
      split at h
      · rename_i f hv
        injection h with h; injection h with h1 h2; subst h1 h2
        refine ⟨_, .flt hip hf he hx hv, ?_⟩
        rw [List.append_assoc, List.append_assoc, ← e3, ← e2]; exact e1
      · cases h
    · rename_i hx
      split at h
      · cases h
      rename_i hlen
      rw [pyInt_intPart (F := F) hip] at h
      injection h with h; injection h with h1 h2; subst h1 h2
      refine ⟨_, .int hip (Nat.not_lt.1 hlen), ?_⟩
      simp only [not_or, Decidable.not_not] at hx
      rw [hx.1, List.nil_append] at e2
      rw [hx.2, List.nil_append] at e3
      rw [← e3, ← e2]; exact e1
  split at h
  · rename_i hd
    injection h with h; injection h with h1 h2; subst h1 h2
    exact ⟨_, .nan rfl, (dropPrefix?_iff _ _ _).1 hd⟩
  split at h
  · rename_i hd
    injection h with h; injection h with h1 h2; subst h1 h2
    exact ⟨_, .inf rfl, (dropPrefix?_iff _ _ _).1 hd⟩
  split at h
  · rename_i hd
    injection h with h; injection h with h1 h2; subst h1 h2
    exact ⟨_, .ninf rfl, (dropPrefix?_iff _ _ _).1 hd⟩
  · cases h

theorem sound (n : Nat) :
    (∀ (s r : Str) (v : JVal F), scan L n s = .ok (v, r) → ∃ t, Value L PyRt.fparse (some consts) t v ∧ s = t ++ r) ∧
    (∀ (s r : Str) (l : List (JVal F)), scanItems L n s = .ok (l, r) → ∃ t, Items L PyRt.fparse (some consts) t l ∧ s = t ++ ']' :: r) ∧
    (∀ (s r : Str) (l : List (Str × JVal F)), scanMembers L n s = .ok (l, r) →
      ∃ t, Members L PyRt.fparse (some consts) ('"' :: t) l ∧ s = t ++ '}' :: r) := by
  induction n with
  | zero => exact ⟨fun _ _ _ h => by simp [scan] at h, fun _ _ _ h => by simp [scanItems] at h, fun _ _ _ h => by simp [scanMembers] at h⟩
  | succ n ih =>
    obtain ⟨ih1, ih2, ih3⟩ := ih
    refine ⟨?_, ?_, ?_⟩
    · intro s r v h
      cases s with
      | nil => simp [scan] at h
      | cons c s =>
        simp only [scan] at h
        split at h
        · rename_i hc
          subst hc
          split at h
          · cases h
          · rename_i u r1 hs
            injection h with h; injection h with h1 h2; subst h1 h2
            obtain ⟨t, ht, e⟩ := scanString_sound _ _ _ _ hs
            exact ⟨_, .str ht, by rw [e]; simp⟩
        split at h
        · rename_i hc
          subst hc
          obtain ⟨b, hb, eb, -⟩ := skipWs_spec s
          split at h
          · rename_i r1 hw
            injection h with h; injection h with h1 h2; subst h1 h2
            exact ⟨_, .emptyDict hb, by rw [eb, hw]; simp⟩
          · rename_i r1 hw
            split at h
            · cases h
            · rename_i l r2 hm
              injection h with h; injection h with h1 h2; subst h1 h2
              obtain ⟨t, ht, e⟩ := ih3 _ _ _ hm
              exact ⟨_, .dict hb ht, by rw [eb, hw, e]; simp⟩
          · cases h
        split at h
        · rename_i hc
          subst hc
          obtain ⟨b, hb, eb, -⟩ := skipWs_spec s
          split at h
          · rename_i r1 hw
            injection h with h; injection h with h1 h2; subst h1 h2
            exact ⟨_, .emptyList hb, by rw [eb, hw]; simp⟩
          · split at h
            · cases h
            · rename_i l r2 hm
              injection h with h; injection h with h1 h2; subst h1 h2
              obtain ⟨t, ht, e⟩ := ih2 _ _ _ hm
              exact ⟨_, .list hb ht, by rw [eb, e]; simp⟩
        · exact scanAtom_sound h
    · intro s r l h
      simp only [scanItems] at h
      split at h
      · cases h
      · rename_i v r1 hv
        obtain ⟨t, ht, e⟩ := ih1 _ _ _ hv
        obtain ⟨b, hb, eb, -⟩ := skipWs_spec r1
        split at h
        · rename_i r2 hw
          injection h with h; injection h with h1 h2; subst h1 h2
          exact ⟨_, .one ht hb, by rw [e, eb, hw]; simp⟩
        · rename_i r2 hw
          obtain ⟨b', hb', eb', -⟩ := skipWs_spec r2
          split at h
          · cases h
          · rename_i l r3 hm
            injection h with h; injection h with h1 h2; subst h1 h2
            obtain ⟨t', ht', e'⟩ := ih2 _ _ _ hm
            exact ⟨_, .cons ht hb hb' ht', by rw [e, eb, hw, eb', e']; simp⟩
        · cases h
    · intro s r l h
      simp only [scanMembers] at h
      split at h
      · cases h
      · rename_i k r1 hk
        obtain ⟨kt, hkt, ek⟩ := scanString_sound _ _ _ _ hk
        obtain ⟨b1, hb1, eb1, -⟩ := skipWs_spec r1
        split at h
        · rename_i r2 hw
          obtain ⟨b2, hb2, eb2, -⟩ := skipWs_spec r2
          split at h
          · cases h
          · rename_i v r3 hv
            obtain ⟨t, ht, e⟩ := ih1 _ _ _ hv
            obtain ⟨b3, hb3, eb3, -⟩ := skipWs_spec r3
            split at h
            · rename_i r4 hw3
              injection h with h; injection h with h1 h2; subst h1 h2
              exact ⟨_, .one hkt hb1 hb2 ht hb3, by rw [ek, eb1, hw, eb2, e, eb3, hw3]; simp⟩
            · rename_i r4 hw3
              obtain ⟨b4, hb4, eb4, -⟩ := skipWs_spec r4
              split at h
              · rename_i r5 hw4
                split at h
                · cases h
                · rename_i l r6 hm
                  injection h with h; injection h with h1 h2; subst h1 h2
                  obtain ⟨t', ht', e'⟩ := ih3 _ _ _ hm
                  exact ⟨_, .cons hkt hb1 hb2 ht hb3 hb4 ht', by rw [ek, eb1, hw, eb2, e, eb3, hw3, eb4, hw4, e']; simp⟩
              · cases h
            · cases h
        · cases h

theorem decode_iff (s : Str) (v : JVal F) : decode L s = .ok v ↔ Document L PyRt.fparse (some consts) s v := by
  constructor
  · intro h
    unfold decode at h
    split at h
    · rename_i c r
      split at h
      · cases h
      · split at h
        · cases h
        · rename_i v' r' hs
          split at h
          · rename_i hw
            injection h with h; subst h
            obtain ⟨t, ht, e⟩ := (sound _).1 _ _ _ hs
            obtain ⟨a, ha, ea, -⟩ := skipWs_spec (c :: r)
            exact ⟨a, t, r', by rw [ea, e]; simp, ha, ht, blank_of_skipWs hw⟩
          · cases h
    · cases h
  · rintro ⟨a, t, b, rfl, ha, ht, hb⟩
    have hne : ∃ c r, a ++ t ++ b = c :: r ∧ c.toNat ≠ 0xfeff := by
      cases a with
      | nil =>
        obtain ⟨c, u, rfl, -, h, -⟩ := value_head ht.free
        exact ⟨_, _, rfl, by omega⟩
      | cons c a =>
        refine ⟨_, _, rfl, ?_⟩
        rcases ha c (by simp) with rfl | rfl | rfl | rfl <;> decide
    obtain ⟨c, r, e, hc⟩ := hne
    rw [e]
    simp only [decode, if_neg hc]
    have hs : skipWs (c :: r) = t ++ b := by
      rw [← e, List.append_assoc]
      exact skipWs_append ha (headNot_value ht.free b)
    have hl := congrArg List.length e
    simp only [List.length_append] at hl
    rw [hs, scan_complete ht _ b (by simpa using Follow.blank_append hb Follow.nil) (by omega)]
    simp only [skipWs_blank hb, if_true]


/-! ### Writing -/

theorem digitChar_ne : ∀ d, d < 10 → Char.ofNat (48 + d) ≠ '-' := by decide

theorem digits_natStr (L n : Nat) : digits (natStr n) ≤ L ↔ 0 < L ∧ n < 10 ^ L := by
  induction n using Nat.strongRecOn generalizing L with
  | ind n ih =>
    unfold natStr
    split
    · rename_i h
      have := digitChar_ne n h
      have e : digits [Char.ofNat (48 + n)] = 1 := by simp [digits, this]
      rw [e]
      constructor
      · intro hL
        refine ⟨hL, Nat.lt_of_lt_of_le h ?_⟩
        have := Nat.pow_le_pow_right (n := 10) (by omega) hL
        simpa using this
      · exact fun h => h.1
    · rename_i h
      have := digitChar_ne (n % 10) (Nat.mod_lt _ (by omega))
      have e : digits (natStr (n / 10) ++ [Char.ofNat (48 + n % 10)]) = digits (natStr (n / 10)) + 1 := by simp [digits, this]
      rw [e]
      cases L with
      | zero => simp
      | succ L =>
        rw [Nat.add_le_add_iff_right, ih (n / 10) (by omega) L, Nat.pow_succ, Nat.div_lt_iff_lt_mul (by omega)]
        constructor
        · exact fun h => ⟨by omega, h.2⟩
        · rintro ⟨_, h2⟩
          refine ⟨?_, h2⟩
          cases L with
          | zero => simp at h2; omega
          | succ L => omega

theorem short_iff (L : Nat) (i : Int) : Short L i ↔ digits (encodeInt i) ≤ L := by
  unfold encodeInt Short
  split
  · rw [show digits ('-' :: natStr i.natAbs) = digits (natStr i.natAbs) by simp [digits], digits_natStr]
  · rw [digits_natStr]

theorem encodeFloat_value (f : F) : Value L PyRt.fparse (some consts) (encodeFloat f) (.flt f) := by
  have h := JsonText.encodeFloat_value f
  generalize encodeFloat f = s at h
  generalize hv : (JVal.flt f : JVal F) = v at h
  cases h with
  | flt a b c d e => exact .flt a b c d e
  | nan h => exact .nan h
  | inf h => exact .inf h
  | ninf h => exact .ninf h
  | _ => cases hv

mutual
theorem encodeAt_value (parse : Str → Option F) (ext : Option (Consts F)) (hf : ∀ f, Value L parse ext (encodeFloat f) (.flt f)) (l : Layout) (n : Nat) :
    ∀ (v : JVal F), v.Proper → IntsAre (Short L) v → Value L parse ext (encodeAt l n v) v
  | .null, _, _ => by simp only [encodeAt]; exact .null
  | .bool true, _, _ => by simp only [encodeAt]; exact .tt
  | .bool false, _, _ => by simp only [encodeAt]; exact .ff
  | .int i, _, h => by
    cases h with | int h =>
    simp only [encodeAt]
    have := Value.int (parse := parse) (ext := ext) (encodeInt_spec i).1 ((short_iff L i).1 h)
    rw [(encodeInt_spec i).2] at this
    exact this
  | .flt f, _, _ => by simp only [encodeAt]; exact hf f
  | .str s, _, _ => by simp only [encodeAt]; exact .str (encodeStr_chars s)
  | .list [], _, _ => by simp only [encodeAt]; exact .emptyList (b := []) (by intro c hc; cases hc)
  | .list (v :: r), h1, h2 => by
    cases h1 with | list h1 =>
    cases h2 with | list h2 =>
    simp only [encodeAt]
    have hv := encodeAt_value parse ext hf l (n + 1) v (h1 v (by simp)) (h2 v (by simp))
    have hr := encodeMore_items parse ext hf l (n + 1) r (fun x hx => h1 x (by simp [hx])) (fun x hx => h2 x (by simp [hx])) _ _ (l.newline n) hv (newline_blank l n)
    have := Value.list (newline_blank l (n + 1)) hr
    simpa [List.append_assoc] using this
  | .dict [], _, _ => by simp only [encodeAt]; exact .emptyDict (b := []) (by intro c hc; cases hc)
  | .dict ((k, v) :: r), h1, h2 => by
    cases h1 with | dict h0 h1 =>
    cases h2 with | dict h2 =>
    simp only [encodeAt]
    have hv := encodeAt_value parse ext hf l (n + 1) v (h1 (k, v) (by simp)) (h2 (k, v) (by simp))
    have hr := encodeMembers_members parse ext hf l (n + 1) r (fun x hx => h1 x (by simp [hx])) (fun x hx => h2 x (by simp [hx])) k _ _ (l.newline n) hv (newline_blank l n)
    have := Value.dict (newline_blank l (n + 1)) hr
    rw [object_of_nodup h0] at this
    simpa [encodeStr, List.append_assoc] using this
theorem encodeMore_items (parse : Str → Option F) (ext : Option (Consts F)) (hf : ∀ f, Value L parse ext (encodeFloat f) (.flt f)) (l : Layout) (n : Nat) :
    ∀ (r : List (JVal F)), (∀ x ∈ r, x.Proper) → (∀ x ∈ r, IntsAre (Short L) x) → ∀ (s : Str) (v : JVal F) (b : Str), Value L parse ext s v → JsonSpec.Blank b →
      Items L parse ext (s ++ encodeMore l n r ++ b) (v :: r)
  | [], _, _, s, v, b, hv, hb => by simp only [encodeMore, List.append_nil]; exact .one hv hb
  | x :: r, h1, h2, s, v, b, hv, hb => by
    have hx := encodeAt_value parse ext hf l n x (h1 x (by simp)) (h2 x (by simp))
    have ih := encodeMore_items parse ext hf l n r (fun y hy => h1 y (by simp [hy])) (fun y hy => h2 y (by simp [hy])) _ _ b hx hb
    obtain ⟨b', e, hb'⟩ := separator_spec l n
    simp only [encodeMore, e]
    have := Items.cons (b := []) hv (by intro c hc; cases hc) hb' ih
    simpa [List.append_assoc] using this
theorem encodeMembers_members (parse : Str → Option F) (ext : Option (Consts F)) (hf : ∀ f, Value L parse ext (encodeFloat f) (.flt f)) (l : Layout) (n : Nat) :
    ∀ (r : List (Str × JVal F)), (∀ x ∈ r, x.2.Proper) → (∀ x ∈ r, IntsAre (Short L) x.2) → ∀ (k : Str) (s : Str) (v : JVal F) (b : Str), Value L parse ext s v → JsonSpec.Blank b →
      Members L parse ext (encodeStr k ++ s!!": " ++ s ++ encodeMembers l n r ++ b) ((k, v) :: r)
  | [], _, _, k, s, v, b, hv, hb => by
    have := Members.one (b1 := []) (b2 := [' ']) (encodeStr_chars k) (by intro c hc; cases hc) (by intro c hc; simp at hc; simp [hc]) hv hb
    simpa [encodeMembers, encodeStr, List.append_assoc] using this
  | (k', x) :: r, h1, h2, k, s, v, b, hv, hb => by
    have hx := encodeAt_value parse ext hf l n x (h1 (k', x) (by simp)) (h2 (k', x) (by simp))
    have ih := encodeMembers_members parse ext hf l n r (fun y hy => h1 y (by simp [hy])) (fun y hy => h2 y (by simp [hy])) k' _ _ b hx hb
    obtain ⟨b', e, hb'⟩ := separator_spec l n
    have := Members.cons (b1 := []) (b2 := [' ']) (b3 := []) (encodeStr_chars k) (by intro c hc; cases hc) (by intro c hc; simp at hc; simp [hc]) hv (by intro c hc; cases hc) hb' ih
    simpa [encodeMembers, e, encodeStr, List.append_assoc] using this
end


theorem encode_document (l : Layout) {v : JVal F} (h : v.Proper) (hi : IntsAre (Short L) v) : Document L PyRt.fparse (some consts) (encode l v) v :=
  ⟨[], _, [], by simp [encode], (fun _ hc => by cases hc), encodeAt_value _ _ (fun f => encodeFloat_value f) l 0 v h hi, (fun _ hc => by cases hc)⟩

end Spine.Digits
