import Verif.Props.Digits
import Verif.Lemmas.JsonLayout
import Verif.Spec.ConcreteFloat
/-
C97: how reading fails when whole numbers may have at most `L` digits.
-/
set_option linter.unusedSectionVars false
namespace Spine
namespace Digits
variable {F : Type} [JsonRt F] {L : Nat}

theorem scanAtom_sim (s : Str) : scanAtom (F := F) L s = .error .value ∨ scanAtom (F := F) L s = JsonText.scanAtom s := by
  unfold scanAtom JsonText.scanAtom
  cases dropPrefix? s s!!"null" with
  | some r => exact .inr rfl
  | none =>
  cases dropPrefix? s s!!"true" with
  | some r => exact .inr rfl
  | none =>
  cases dropPrefix? s s!!"false" with
  | some r => exact .inr rfl
  | none =>
  cases JsonText.scanIntPart s with
  | none => exact .inr rfl
  | some q =>
    obtain ⟨ip, r⟩ := q
    simp only
    split
    · exact .inr rfl
    · split
      · exact .inl rfl
      · exact .inr rfl

theorem sim (n : Nat) :
    (∀ s : Str, scan (F := F) L n s = .error .value ∨ scan (F := F) L n s = JsonText.scan n s) ∧
    (∀ s : Str, scanItems (F := F) L n s = .error .value ∨ scanItems (F := F) L n s = JsonText.scanItems n s) ∧
    (∀ s : Str, scanMembers (F := F) L n s = .error .value ∨ scanMembers (F := F) L n s = JsonText.scanMembers n s) := by
  induction n with
  | zero => exact ⟨fun _ => .inr (by simp only [scan, JsonText.scan]), fun _ => .inr (by simp only [scanItems, JsonText.scanItems]),
      fun _ => .inr (by simp only [scanMembers, JsonText.scanMembers])⟩
  | succ n ih =>
    obtain ⟨ih1, ih2, ih3⟩ := ih
    refine ⟨?_, ?_, ?_⟩ <;> intro s
    · cases s with
      | nil => exact .inr (by simp only [scan, JsonText.scan])
      | cons c r =>
        simp only [scan, JsonText.scan]
        by_cases h1 : c = '"'
        · rw [if_pos h1, if_pos h1]; exact .inr rfl
        rw [if_neg h1, if_neg h1]
        by_cases h2 : c = '{'
        · rw [if_pos h2, if_pos h2]
          split
          · rename_i h; rw [h]; exact .inr rfl
          · rename_i r' h
            rw [h]
            rcases ih3 r' with h | h
            · rw [h]; exact .inl rfl
            · rw [h]; exact .inr rfl
          · exact .inl rfl
        rw [if_neg h2, if_neg h2]
        by_cases h3 : c = '['
        · rw [if_pos h3, if_pos h3]
          rcases ih2 (JsonText.skipWs r) with h | h
          · split
            · rename_i h4; rw [h4]; exact .inr rfl
            · rw [h]; exact .inl rfl
          · split
            · rename_i h4; rw [h4]; exact .inr rfl
            · rename_i h4
              rw [h]
              refine .inr (Eq.symm ?_)
              split
              · rename_i r' h5; exact absurd h5 (h4 r')
              · rfl
        rw [if_neg h3, if_neg h3]
        exact scanAtom_sim _
    · simp only [scanItems, JsonText.scanItems]
      rcases ih1 s with h | h
      · rw [h]; exact .inl rfl
      · rw [h]
        cases JsonText.scan (F := F) n s with
        | error e => exact .inr rfl
        | ok q =>
          obtain ⟨v, r⟩ := q
          simp only
          split
          · rename_i h; rw [h]; exact .inr rfl
          · rename_i r' h
            rw [h]
            simp only
            rcases ih2 (JsonText.skipWs r') with h | h
            · rw [h]; exact .inl rfl
            · rw [h]; exact .inr rfl
          · exact .inl rfl
    · simp only [scanMembers, JsonText.scanMembers]
      cases JsonText.scanString (s.length + 1) s with
      | error e => exact .inr rfl
      | ok q =>
        obtain ⟨k, r⟩ := q
        simp only
        split
        · rename_i r' h
          rw [h]
          simp only
          rcases ih1 (JsonText.skipWs r') with h | h
          · rw [h]; exact .inl rfl
          · rw [h]
            cases JsonText.scan (F := F) n (JsonText.skipWs r') with
            | error e => exact .inr rfl
            | ok q =>
              obtain ⟨v, r⟩ := q
              simp only
              split
              · rename_i h; rw [h]; exact .inr rfl
              · rename_i r' h
                rw [h]
                simp only
                split
                · rename_i r'' h
                  rw [h]
                  simp only
                  rcases ih3 r'' with h | h
                  · rw [h]; exact .inl rfl
                  · rw [h]; exact .inr rfl
                · exact .inl rfl
              · exact .inl rfl
        · exact .inl rfl

/-- C97: the limit changes nothing but that some texts are refused, with ValueError. -/
theorem c97_read_or (L : Nat) (s : Str) : decode (F := F) L s = .error .value ∨ decode (F := F) L s = JsonText.decode s := by
  unfold decode JsonText.decode
  split
  · rename_i c r
    split
    · exact .inl rfl
    · rename_i hb
      simp only [if_neg hb]
      rcases (sim (F := F) (L := L) (2 * (c :: r).length + 2)).1 (JsonText.skipWs (c :: r)) with h | h
      · rw [h]; exact .inl rfl
      · rw [h]; exact .inr rfl
  · exact .inr rfl

/-- C97: whatever the text, reading fails with ValueError (texts with lone surrogate escapes are the subject of C99). -/
theorem c97_read_error {s : Str} {x : Err} (h : decode (F := F) L s = .error x) : x = .value ∨ x = .unmodelled := by
  rcases c97_read_or (F := F) L s with h1 | h1
  · rw [h] at h1; injection h1 with h1; exact .inl h1
  · rw [h] at h1; exact JsonText.decode_err h1.symm

/-- C97: a text that is read without the limit and not with it is refused with ValueError. -/
theorem c97_read_refused {s : Str} {v : JVal F} (h : JsonText.decode s = .ok v) (hl : ∀ w, decode (F := F) L s ≠ .ok w) :
    decode (F := F) L s = .error .value := by
  rcases c97_read_or (F := F) L s with h1 | h1
  · exact h1
  · exact absurd (h1.trans h) (hl v)

/-- non-vacuity: with at most two digits, 100 is refused and 10 is read -/
example : decode (F := XF) 2 s!!"[100]" = .error .value ∧ (∃ v, JsonText.decode (F := XF) s!!"[100]" = .ok v) ∧
    ∃ v, decode (F := XF) 2 s!!"[10]" = .ok v := ⟨rfl, ⟨_, rfl⟩, ⟨_, rfl⟩⟩

end Digits
end Spine
