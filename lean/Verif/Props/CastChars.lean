import Verif.Props.Cast
/-
C76: which characters of a string stay as they are in the text of a list or dictionary.
-/
namespace Spine
namespace Cast

/-- C76: exactly the printable characters other than the quotes around the string and the backslash stay. -/
theorem c76_plain (pr : Char → Bool) (q c : Char) :
    Repr.char pr q c = [c] ↔ c ≠ q ∧ c ≠ '\\' ∧ 32 ≤ c.toNat ∧ (c.toNat ≤ 126 ∨ 128 ≤ c.toNat ∧ pr c = true) := by
  have two : ∀ (x y : Char) (l : Str), ¬ (x :: y :: l = [c]) := by intro x y l h; cases h
  have ht : '\t'.toNat = 9 := rfl
  have hn : '\n'.toNat = 10 := rfl
  have hr : '\r'.toNat = 13 := rfl
  unfold Repr.char
  split
  · rename_i h
    exact ⟨fun e => absurd e (two _ _ _), fun e => h.elim (fun h => absurd h e.1) (fun h => absurd h e.2.1)⟩
  rename_i h0
  split
  · rename_i h; subst h; exact ⟨fun e => absurd e (two _ _ _), fun e => by omega⟩
  split
  · rename_i h; subst h; exact ⟨fun e => absurd e (two _ _ _), fun e => by omega⟩
  split
  · rename_i h; subst h; exact ⟨fun e => absurd e (two _ _ _), fun e => by omega⟩
  split
  · rename_i h; exact ⟨fun e => absurd e (two _ _ _), fun e => by omega⟩
  rename_i h1
  have hq : c ≠ q ∧ c ≠ '\\' := ⟨fun e => h0 (.inl e), fun e => h0 (.inr e)⟩
  split
  · exact ⟨fun _ => ⟨hq.1, hq.2, by omega, .inl (by omega)⟩, fun _ => rfl⟩
  rename_i h2
  split
  · rename_i h3; exact ⟨fun _ => ⟨hq.1, hq.2, by omega, .inr ⟨by omega, h3⟩⟩, fun _ => rfl⟩
  rename_i h3
  have no : ¬ (c.toNat ≤ 126 ∨ 128 ≤ c.toNat ∧ pr c = true) := fun h => h.elim (fun h => by omega) (fun h => h3 h.2)
  split
  · exact ⟨fun e => absurd e (two _ _ _), fun e => absurd e.2.2.2 no⟩
  split
  · exact ⟨fun e => absurd e (two _ _ _), fun e => absurd e.2.2.2 no⟩
  · exact ⟨fun e => absurd e (two _ _ _), fun e => absurd e.2.2.2 no⟩

/-- C76: every other character becomes an escape. -/
theorem c76_escaped (pr : Char → Bool) (q c : Char) (h : Repr.char pr q c ≠ [c]) : (Repr.char pr q c).head? = some '\\' := by
  revert h
  unfold Repr.char
  repeat' split
  all_goals first | exact fun _ => rfl | exact fun h => absurd rfl h

example : Repr.char (fun c => c = 'é') '"' 'é' = ['é'] ∧ Repr.char (fun c => c = 'é') '"' 'è' = s!!"\\xe8" ∧
    Repr.char (fun _ => true) '"' '"' = s!!"\\\"" ∧ Repr.char (fun _ => true) '"' '\'' = s!!"'" := by decide +kernel

end Cast
end Spine
