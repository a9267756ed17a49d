import Verif.Model.Py
/- General list facts. -/
namespace Spine

theorem length_le_of_nodup_subset {α : Type} [DecidableEq α] {l m : List α} (hn : l.Nodup) (hs : ∀ x ∈ l, x ∈ m) :
    l.length ≤ m.length := by
  induction l generalizing m with
  | nil => simp
  | cons a l ih =>
    have hn' := List.nodup_cons.1 hn
    have ham : a ∈ m := hs a (by simp)
    have h := ih (m := m.erase a) hn'.2 (by
      intro x hx
      have hxa : x ≠ a := by rintro rfl; exact hn'.1 hx
      exact (List.mem_erase_of_ne hxa).2 (hs x (by simp [hx])))
    rw [List.length_erase_of_mem ham] at h
    have : 0 < m.length := List.length_pos_of_mem ham
    simp; omega

/-! ### decimal strings -/

def natVal : Str → Nat := List.foldl (fun acc c => acc * 10 + (c.toNat - 48)) 0

theorem digit_toNat (d : Nat) (h : d < 10) : (Char.ofNat (48 + d)).toNat = 48 + d := by
  have : ∀ d : Fin 10, (Char.ofNat (48 + d.1)).toNat = 48 + d.1 := by decide
  exact this ⟨d, h⟩

theorem natVal_natStr (n : Nat) : natVal (natStr n) = n := by
  induction n using natStr.induct with
  | case1 n h =>
    rw [natStr]; simp only [h, if_true, natVal, List.foldl_cons, List.foldl_nil]
    rw [digit_toNat n h]; omega
  | case2 n h ih =>
    rw [natStr]; simp only [h, if_false]
    have : natVal (natStr (n / 10) ++ [Char.ofNat (48 + n % 10)]) =
        natVal (natStr (n / 10)) * 10 + ((Char.ofNat (48 + n % 10)).toNat - 48) := by
      simp [natVal, List.foldl_append]
    rw [this, ih, digit_toNat _ (by omega)]; omega

theorem natStr_inj {a b : Nat} (h : natStr a = natStr b) : a = b := by
  rw [← natVal_natStr a, ← natVal_natStr b, h]

theorem natStr_ne_nil (n : Nat) : natStr n ≠ [] := by
  rw [natStr]; split <;> simp

end Spine
