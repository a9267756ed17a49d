import Verif.Spec.Paths
import Verif.Lemmas.TraverseData
import Verif.Lemmas.Dict
/-
What the traversal does at every place of a value.
-/
set_option linter.unusedSectionVars false
namespace Spine.SVal
open JVal
variable {F : Type} [PyRt F]

/-! ### The loops -/

theorem toJsonL_ok {b : Bool} : ∀ {l : List (SVal F)} {r : List (JVal F)}, toJsonL b l = .ok r → ∀ n : Nat,
    (∀ x, l[n]? = some x → ∃ u, x.toJson b = .ok u ∧ r[n]? = some u) ∧
    (∀ u, r[n]? = some u → ∃ x, l[n]? = some x ∧ x.toJson b = .ok u)
  | [], r, h, n => by cases h; simp
  | v :: l, r, h, n => by
    simp only [toJsonL] at h
    cases hv : v.toJson b with
    | error e => simp [hv] at h
    | ok w =>
      cases hl : toJsonL b l with
      | error e => simp [hv, hl] at h
      | ok s =>
        simp only [hv, hl, Except.ok.injEq] at h
        subst h
        cases n with
        | zero => simp only [List.getElem?_cons_zero, Option.some.injEq]; exact ⟨fun x e => ⟨w, e ▸ hv, rfl⟩, fun u e => ⟨v, rfl, e ▸ hv⟩⟩
        | succ n => simp only [List.getElem?_cons_succ]; exact toJsonL_ok hl n

theorem toJsonD_ok {b : Bool} : ∀ {l : List (Str × SVal F)} {r : List (Str × JVal F)}, toJsonD b l = .ok r → ∀ k : Str,
    (∀ x, Dict.get? l k = some x → ∃ u, x.toJson b = .ok u ∧ Dict.get? r k = some u) ∧
    (∀ u, Dict.get? r k = some u → ∃ x, Dict.get? l k = some x ∧ x.toJson b = .ok u)
  | [], r, h, n => by cases h; simp [Dict.get?]
  | (k', v) :: l, r, h, k => by
    simp only [toJsonD] at h
    cases hv : v.toJson b with
    | error e => simp [hv] at h
    | ok w =>
      cases hl : toJsonD b l with
      | error e => simp [hv, hl] at h
      | ok s =>
        simp only [hv, hl, Except.ok.injEq] at h
        subst h
        by_cases hk : k' = k
        · simp only [Dict.get?, hk, if_true, Option.some.injEq]; exact ⟨fun x e => ⟨w, e ▸ hv, rfl⟩, fun u e => ⟨v, rfl, e ▸ hv⟩⟩
        · simp only [Dict.get?, hk, if_false]; exact toJsonD_ok hl k

theorem toJsonA_keys {b : Bool} {c : Cls F} : ∀ {l : List (Str × SVal F)} {r : List (Str × JVal F)}, toJsonA b c l = .ok r →
    ∀ k ∈ Dict.keys r, k ∈ Dict.keys l
  | [], r, h, k => by cases h; exact id
  | (k', v) :: l, r, h, k => by
    simp only [toJsonA] at h
    split at h
    · cases hv : v.toJson b with
      | error e => simp [hv] at h
      | ok w =>
        cases hl : toJsonA b c l with
        | error e => simp [hv, hl] at h
        | ok s =>
          simp only [hv, hl, Except.ok.injEq] at h
          subst h
          have ih := toJsonA_keys hl k
          simp only [Dict.keys, List.map_cons, List.mem_cons] at ih ⊢
          exact fun h => h.imp id ih
    · have ih := toJsonA_keys h k
      simp only [Dict.keys, List.map_cons, List.mem_cons] at ih ⊢
      exact fun h => .inr (ih h)

theorem toJsonA_ok {b : Bool} {c : Cls F} : ∀ {l : List (Str × SVal F)} {r : List (Str × JVal F)}, toJsonA b c l = .ok r →
    ∀ k : Str, (∀ x, Dict.get? l k = some x → emits c b k x = true → ∃ u, x.toJson b = .ok u ∧ Dict.get? r k = some u) ∧
      ((Dict.keys l).Nodup → ∀ u, Dict.get? r k = some u →
        ∃ x, Dict.get? l k = some x ∧ emits c b k x = true ∧ x.toJson b = .ok u)
  | [], r, h, n => by cases h; simp [Dict.get?]
  | (k', v) :: l, r, h, k => by
    simp only [toJsonA] at h
    by_cases he : emits c b k' v = true
    · simp only [he, if_true] at h
      cases hv : v.toJson b with
      | error e => simp [hv] at h
      | ok w =>
        cases hl : toJsonA b c l with
        | error e => simp [hv, hl] at h
        | ok s =>
          simp only [hv, hl, Except.ok.injEq] at h
          subst h
          by_cases hk : k' = k
          · subst hk
            simp only [Dict.get?, if_true, Option.some.injEq]
            exact ⟨fun x e _ => ⟨w, e ▸ hv, rfl⟩, fun _ u e => ⟨v, rfl, he, e ▸ hv⟩⟩
          · simp only [Dict.get?, hk, if_false]
            refine ⟨(toJsonA_ok hl k).1, fun hn => (toJsonA_ok hl k).2 ?_⟩
            simp only [Dict.keys, List.map_cons, List.nodup_cons] at hn
            exact hn.2
    · simp only [he, Bool.false_eq_true, if_false] at h
      by_cases hk : k' = k
      · subst hk
        simp only [Dict.get?, if_true, Option.some.injEq]
        refine ⟨fun x e hx => absurd (e ▸ hx) he, fun hn u hu => ?_⟩
        simp only [Dict.keys, List.map_cons, List.nodup_cons] at hn
        exact absurd (toJsonA_keys h k' (Dict.mem_keys_of_get? hu)) hn.1
      · simp only [Dict.get?, hk, if_false]
        refine ⟨(toJsonA_ok h k).1, fun hn => (toJsonA_ok h k).2 ?_⟩
        simp only [Dict.keys, List.map_cons, List.nodup_cons] at hn
        exact hn.2

theorem toJsonL_error {b : Bool} {e : Err} : ∀ {l : List (SVal F)}, toJsonL b l = .error e →
    ∃ (n : Nat) (x : SVal F), l[n]? = some x ∧ x.toJson b = .error e
  | [], h => by cases h
  | v :: l, h => by
    simp only [toJsonL] at h
    cases hv : v.toJson b with
    | error e' =>
      simp only [hv] at h
      exact ⟨0, v, rfl, by rw [hv, Except.error.inj h]⟩
    | ok w =>
      cases hl : toJsonL b l with
      | error e' =>
        simp only [hv, hl] at h
        obtain ⟨n, x, h1, h2⟩ := toJsonL_error (e := e) (l := l) (by rw [hl]; exact h)
        exact ⟨n + 1, x, h1, h2⟩
      | ok s => simp [hv, hl] at h

theorem toJsonD_error {b : Bool} {e : Err} : ∀ {l : List (Str × SVal F)}, (Dict.keys l).Nodup → toJsonD b l = .error e →
    ∃ (k : Str) (x : SVal F), Dict.get? l k = some x ∧ x.toJson b = .error e
  | [], _, h => by cases h
  | (k', v) :: l, hn, h => by
    simp only [toJsonD] at h
    cases hv : v.toJson b with
    | error e' =>
      simp only [hv] at h
      exact ⟨k', v, by simp [Dict.get?], by rw [hv, Except.error.inj h]⟩
    | ok w =>
      cases hl : toJsonD b l with
      | error e' =>
        simp only [hv, hl] at h
        simp only [Dict.keys, List.map_cons, List.nodup_cons] at hn
        obtain ⟨k, x, h1, h2⟩ := toJsonD_error (e := e) (l := l) hn.2 (by rw [hl]; exact h)
        have : k' ≠ k := fun he => hn.1 (he ▸ Dict.mem_keys_of_get? h1)
        exact ⟨k, x, by simp [Dict.get?, this, h1], h2⟩
      | ok s => simp [hv, hl] at h

theorem toJsonA_error {b : Bool} {c : Cls F} {e : Err} : ∀ {l : List (Str × SVal F)}, (Dict.keys l).Nodup →
    toJsonA b c l = .error e → ∃ (k : Str) (x : SVal F), Dict.get? l k = some x ∧ emits c b k x = true ∧ x.toJson b = .error e
  | [], _, h => by cases h
  | (k', v) :: l, hn, h => by
    simp only [toJsonA] at h
    simp only [Dict.keys, List.map_cons, List.nodup_cons] at hn
    have tail : toJsonA b c l = .error e →
        ∃ (k : Str) (x : SVal F), Dict.get? ((k', v) :: l) k = some x ∧ emits c b k x = true ∧ x.toJson b = .error e := by
      intro hl
      obtain ⟨k, x, h1, h2⟩ := toJsonA_error (e := e) (l := l) hn.2 hl
      have : k' ≠ k := fun he => hn.1 (he ▸ Dict.mem_keys_of_get? h1)
      exact ⟨k, x, by simp [Dict.get?, this, h1], h2⟩
    by_cases he : emits c b k' v = true
    · simp only [he, if_true] at h
      cases hv : v.toJson b with
      | error e' =>
        simp only [hv] at h
        exact ⟨k', v, by simp [Dict.get?], he, by rw [hv, Except.error.inj h]⟩
      | ok w =>
        cases hl : toJsonA b c l with
        | error e' => simp only [hv, hl] at h; exact tail (by rw [hl]; exact h)
        | ok s => simp [hv, hl] at h
    · simp only [he, Bool.false_eq_true, if_false] at h
      exact tail h

theorem setDefaultsL_ok {b : Bool} : ∀ {l r : List (SVal F)}, setDefaultsL b l = .ok r → ∀ n : Nat,
    ∀ x, l[n]? = some x → ∃ u, x.setDefaults b = .ok u ∧ r[n]? = some u
  | [], r, h, n => by cases h; simp
  | v :: l, r, h, n => by
    simp only [setDefaultsL] at h
    cases hv : v.setDefaults b with
    | error e => simp [hv] at h
    | ok w =>
      cases hl : setDefaultsL b l with
      | error e => simp [hv, hl] at h
      | ok s =>
        simp only [hv, hl, Except.ok.injEq] at h
        subst h
        cases n with
        | zero => simp only [List.getElem?_cons_zero, Option.some.injEq]; exact fun x e => ⟨w, e ▸ hv, rfl⟩
        | succ n => simp only [List.getElem?_cons_succ]; exact setDefaultsL_ok hl n

theorem setDefaultsD_ok {b : Bool} : ∀ {l r : List (Str × SVal F)}, setDefaultsD b l = .ok r → ∀ k : Str,
    ∀ x, Dict.get? l k = some x → ∃ u, x.setDefaults b = .ok u ∧ Dict.get? r k = some u
  | [], r, h, n => by cases h; simp [Dict.get?]
  | (k', v) :: l, r, h, k => by
    simp only [setDefaultsD] at h
    cases hv : v.setDefaults b with
    | error e => simp [hv] at h
    | ok w =>
      cases hl : setDefaultsD b l with
      | error e => simp [hv, hl] at h
      | ok s =>
        simp only [hv, hl, Except.ok.injEq] at h
        subst h
        by_cases hk : k' = k
        · simp only [Dict.get?, hk, if_true, Option.some.injEq]; exact fun x e => ⟨w, e ▸ hv, rfl⟩
        · simp only [Dict.get?, hk, if_false]; exact setDefaultsD_ok hl k

theorem setDefaultsA_ok {b : Bool} {c : Cls F} : ∀ {l r : List (Str × SVal F)}, setDefaultsA b c l = .ok r →
    Dict.keys r = Dict.keys l ∧ ∀ k x, Dict.get? l k = some x →
      (x = .null → Dict.get? r k = some (ofJ ((Dict.get? (c.defaultsFor b) k).getD .null))) ∧
      (x ≠ .null → ∃ u, x.setDefaults b = .ok u ∧ Dict.get? r k = some u)
  | [], r, h => by cases h; simp [Dict.get?]
  | (k', v) :: l, r, h => by
    simp only [setDefaultsA] at h
    cases hv : (if v.isNull then Except.ok (ofJ ((Dict.get? (c.defaultsFor b) k').getD .null)) else setDefaults b v) with
    | error e => simp [hv] at h
    | ok w =>
      cases hl : setDefaultsA b c l with
      | error e => simp [hv, hl] at h
      | ok s =>
        simp only [hv, hl, Except.ok.injEq] at h
        subst h
        have ih := setDefaultsA_ok hl
        refine ⟨by have := ih.1; simp only [Dict.keys] at this; simp [Dict.keys, this], fun k x hx => ?_⟩
        by_cases hk : k' = k
        · subst hk
          simp only [Dict.get?, if_true, Option.some.injEq] at hx ⊢
          subst hx
          constructor
          · rintro rfl
            simpa [isNull, eq_comm] using hv
          · intro hn
            have : v.isNull = false := by cases v <;> simp_all [isNull]
            simp only [this, Bool.false_eq_true, if_false] at hv
            exact ⟨w, hv, rfl⟩
        · simp only [Dict.get?, hk, if_false] at hx ⊢
          exact ih.2 k x hx

theorem cleanL_ok {ver : Version} : ∀ {l r : List (SVal F)}, cleanL ver l = .ok r → ∀ n : Nat,
    ∀ x, l[n]? = some x → ∃ u, x.clean ver = .ok u ∧ r[n]? = some u
  | [], r, h, n => by cases h; simp
  | v :: l, r, h, n => by
    simp only [cleanL] at h
    cases hv : v.clean ver with
    | error e => simp [hv] at h
    | ok w =>
      cases hl : cleanL ver l with
      | error e => simp [hv, hl] at h
      | ok s =>
        simp only [hv, hl, Except.ok.injEq] at h
        subst h
        cases n with
        | zero => simp only [List.getElem?_cons_zero, Option.some.injEq]; exact fun x e => ⟨w, e ▸ hv, rfl⟩
        | succ n => simp only [List.getElem?_cons_succ]; exact cleanL_ok hl n

theorem cleanD_ok {ver : Version} : ∀ {l r : List (Str × SVal F)}, cleanD ver l = .ok r → ∀ k : Str,
    ∀ x, Dict.get? l k = some x → ∃ u, x.clean ver = .ok u ∧ Dict.get? r k = some u
  | [], r, h, n => by cases h; simp [Dict.get?]
  | (k', v) :: l, r, h, k => by
    simp only [cleanD] at h
    cases hv : v.clean ver with
    | error e => simp [hv] at h
    | ok w =>
      cases hl : cleanD ver l with
      | error e => simp [hv, hl] at h
      | ok s =>
        simp only [hv, hl, Except.ok.injEq] at h
        subst h
        by_cases hk : k' = k
        · simp only [Dict.get?, hk, if_true, Option.some.injEq]; exact fun x e => ⟨w, e ▸ hv, rfl⟩
        · simp only [Dict.get?, hk, if_false]; exact cleanD_ok hl k

theorem cleanA_ok {ver : Version} {c : Cls F} : ∀ {l r : List (Str × SVal F)}, cleanA ver c l = .ok r →
    Dict.keys r = Dict.keys l ∧ ∀ k x, Dict.get? l k = some x →
      (Version.lt ver Version.v38 = true ∧ k ∈ c.unsupportedOld → Dict.get? r k = some .null) ∧
      (¬ (Version.lt ver Version.v38 = true ∧ k ∈ c.unsupportedOld) → ∃ u, x.clean ver = .ok u ∧ Dict.get? r k = some u)
  | [], r, h => by cases h; simp [Dict.get?]
  | (k', v) :: l, r, h => by
    simp only [cleanA] at h
    cases hv : (if Version.lt ver Version.v38 = true ∧ k' ∈ c.unsupportedOld then Except.ok SVal.null else clean ver v) with
    | error e => simp [hv] at h
    | ok w =>
      cases hl : cleanA ver c l with
      | error e => simp [hv, hl] at h
      | ok s =>
        simp only [hv, hl, Except.ok.injEq] at h
        subst h
        have ih := cleanA_ok hl
        refine ⟨by have := ih.1; simp only [Dict.keys] at this; simp [Dict.keys, this], fun k x hx => ?_⟩
        by_cases hk : k' = k
        · subst hk
          simp only [Dict.get?, if_true, Option.some.injEq] at hx ⊢
          subst hx
          constructor
          · intro hc
            rw [if_pos hc] at hv
            exact (Except.ok.inj hv).symm
          · intro hc
            rw [if_neg hc] at hv
            exact ⟨w, hv, rfl⟩
        · simp only [Dict.get?, hk, if_false] at hx ⊢
          exact ih.2 k x hx

mutual
/-- when nothing is cleared, a traversal that succeeds changes nothing -/
theorem clean_id {ver : Version} (hv : Version.lt ver Version.v38 = false) : ∀ {v w : SVal F}, v.clean ver = .ok w → w = v
  | .null, w, h => by simpa [clean, eq_comm] using h
  | .bool _, w, h => by simpa [clean, eq_comm] using h
  | .int _, w, h => by simpa [clean, eq_comm] using h
  | .flt _, w, h => by simpa [clean, eq_comm] using h
  | .str _, w, h => by simpa [clean, eq_comm] using h
  | .other, w, h => by simp [clean] at h
  | .list l, w, h => by
    simp only [clean] at h
    cases hl : cleanL ver l with
    | error e => simp [hl] at h
    | ok s => simp only [hl, Except.ok.injEq] at h; subst h; rw [cleanL_id hv hl]
  | .dict d, w, h => by
    simp only [clean] at h
    cases hl : cleanD ver d with
    | error e => simp [hl] at h
    | ok s => simp only [hl, Except.ok.injEq] at h; subst h; rw [cleanD_id hv hl]
  | .obj c a, w, h => by
    simp only [clean] at h
    cases hl : cleanA ver c a with
    | error e => simp [hl] at h
    | ok s => simp only [hl, Except.ok.injEq] at h; subst h; rw [cleanA_id hv hl]
theorem cleanL_id {ver : Version} (hv : Version.lt ver Version.v38 = false) :
    ∀ {v w : List (SVal F)}, cleanL ver v = .ok w → w = v
  | [], w, h => by simpa [cleanL, eq_comm] using h
  | x :: r, w, h => by
    simp only [cleanL] at h
    cases hx : x.clean ver with
    | error e => simp [hx] at h
    | ok u =>
      cases hl : cleanL ver r with
      | error e => simp [hx, hl] at h
      | ok s => simp only [hx, hl, Except.ok.injEq] at h; subst h; rw [clean_id hv hx, cleanL_id hv hl]
theorem cleanD_id {ver : Version} (hv : Version.lt ver Version.v38 = false) :
    ∀ {v w : List (Str × SVal F)}, cleanD ver v = .ok w → w = v
  | [], w, h => by simpa [cleanD, eq_comm] using h
  | (k, x) :: r, w, h => by
    simp only [cleanD] at h
    cases hx : x.clean ver with
    | error e => simp [hx] at h
    | ok u =>
      cases hl : cleanD ver r with
      | error e => simp [hx, hl] at h
      | ok s => simp only [hx, hl, Except.ok.injEq] at h; subst h; rw [clean_id hv hx, cleanD_id hv hl]
theorem cleanA_id {ver : Version} (hv : Version.lt ver Version.v38 = false) {c : Cls F} :
    ∀ {v w : List (Str × SVal F)}, cleanA ver c v = .ok w → w = v
  | [], w, h => by simpa [cleanA, eq_comm] using h
  | (k, x) :: r, w, h => by
    simp only [cleanA, hv, Bool.false_eq_true, false_and, if_false] at h
    cases hx : x.clean ver with
    | error e => simp [hx] at h
    | ok u =>
      cases hl : cleanA ver c r with
      | error e => simp [hx, hl] at h
      | ok s => simp only [hx, hl, Except.ok.injEq] at h; subst h; rw [clean_id hv hx, cleanA_id hv hl]
end

/-! ### Places -/

theorem toJson_leads {b : Bool} {v w : SVal F} {p : List Step} (hp : Leads (fun c k x => emits c b k x = true) v p w) :
    ∀ {j : JVal F}, v.toJson b = .ok j → ∃ u, w.toJson b = .ok u ∧ j.At p u := by
  induction hp with
  | here v => exact fun h => ⟨_, h, .here _⟩
  | @item l n x w p hx _ ih =>
    intro j h
    simp only [toJson] at h
    cases hl : toJsonL b l with
    | error e => simp [hl] at h
    | ok s =>
      simp only [hl, Except.ok.injEq] at h
      subst h
      obtain ⟨u, h1, h2⟩ := (toJsonL_ok hl n).1 x hx
      obtain ⟨u', h3, h4⟩ := ih h1
      exact ⟨u', h3, .item h2 h4⟩
  | @key d k x w p hx _ ih =>
    intro j h
    simp only [toJson] at h
    cases hl : toJsonD b d with
    | error e => simp [hl] at h
    | ok s =>
      simp only [hl, Except.ok.injEq] at h
      subst h
      obtain ⟨u, h1, h2⟩ := (toJsonD_ok hl k).1 x hx
      obtain ⟨u', h3, h4⟩ := ih h1
      exact ⟨u', h3, .key h2 h4⟩
  | @attr c a k x w p hx he _ ih =>
    intro j h
    simp only [toJson] at h
    cases hl : toJsonA b c a with
    | error e => simp [hl] at h
    | ok s =>
      simp only [hl, Except.ok.injEq] at h
      subst h
      obtain ⟨u, h1, h2⟩ := (toJsonA_ok hl k).1 x hx he
      obtain ⟨u', h3, h4⟩ := ih h1
      exact ⟨u', h3, .key h2 h4⟩

theorem toJson_at {b : Bool} {j u : JVal F} {p : List Step} (hp : j.At p u) : ∀ {v : SVal F}, v.Distinct → v.toJson b = .ok j →
    ∃ w, Leads (fun c k x => emits c b k x = true) v p w ∧ w.toJson b = .ok u := by
  induction hp with
  | here v => exact fun _ h => ⟨_, .here _, h⟩
  | @item l n x w p hx _ ih =>
    intro v hd h
    cases v with
    | list m =>
      cases hd with
      | list _ hd =>
        simp only [toJson] at h
        cases hl : toJsonL b m with
        | error e => simp [hl] at h
        | ok s =>
          simp only [hl, Except.ok.injEq, JVal.list.injEq] at h
          subst h
          obtain ⟨y, h1, h2⟩ := (toJsonL_ok hl n).2 x hx
          obtain ⟨z, h3, h4⟩ := ih (hd y (List.mem_of_getElem? h1)) h2
          exact ⟨z, .item h1 h3, h4⟩
    | dict d => simp only [toJson] at h; cases hl : toJsonD b d <;> simp [hl] at h
    | obj c d => simp only [toJson] at h; cases hl : toJsonA b c d <;> simp [hl] at h
    | _ => simp [toJson] at h
  | @key d k x w p hx _ ih =>
    intro v hd h
    cases v with
    | list m => simp only [toJson] at h; cases hl : toJsonL b m <;> simp [hl] at h
    | dict m =>
      cases hd with
      | dict _ _ hd =>
        simp only [toJson] at h
        cases hl : toJsonD b m with
        | error e => simp [hl] at h
        | ok s =>
          simp only [hl, Except.ok.injEq, JVal.dict.injEq] at h
          subst h
          obtain ⟨y, h1, h2⟩ := (toJsonD_ok hl k).2 x hx
          obtain ⟨z, h3, h4⟩ := ih (hd _ (Dict.mem_of_get? h1)) h2
          exact ⟨z, .key h1 h3, h4⟩
    | obj c m =>
      cases hd with
      | obj _ _ hn hd =>
        simp only [toJson] at h
        cases hl : toJsonA b c m with
        | error e => simp [hl] at h
        | ok s =>
          simp only [hl, Except.ok.injEq, JVal.dict.injEq] at h
          subst h
          obtain ⟨y, h1, he, h2⟩ := (toJsonA_ok hl k).2 hn x hx
          obtain ⟨z, h3, h4⟩ := ih (hd _ (Dict.mem_of_get? h1)) h2
          exact ⟨z, .attr h1 he h3, h4⟩
    | _ => simp [toJson] at h

theorem toJson_error {b : Bool} {v : SVal F} (hd : v.Distinct) : ∀ {e : Err}, v.toJson b = .error e →
    e = .type ∧ ∃ p, Leads (fun c k x => emits c b k x = true) v p .other := by
  induction hd with
  | other =>
    intro e h
    simp only [toJson, Except.error.injEq] at h
    exact ⟨h.symm, [], .here _⟩
  | list l _ ih =>
    intro e h
    simp only [toJson] at h
    cases hl : toJsonL b l with
    | ok s => simp [hl] at h
    | error e' =>
      simp only [hl, Except.error.injEq] at h
      subst h
      obtain ⟨n, x, h1, h2⟩ := toJsonL_error hl
      obtain ⟨h3, p, h4⟩ := ih x (List.mem_of_getElem? h1) h2
      exact ⟨h3, _, .item h1 h4⟩
  | dict d hn _ ih =>
    intro e h
    simp only [toJson] at h
    cases hl : toJsonD b d with
    | ok s => simp [hl] at h
    | error e' =>
      simp only [hl, Except.error.injEq] at h
      subst h
      obtain ⟨n, x, h1, h2⟩ := toJsonD_error hn hl
      obtain ⟨h3, p, h4⟩ := ih _ (Dict.mem_of_get? h1) h2
      exact ⟨h3, _, .key h1 h4⟩
  | obj c a hn _ ih =>
    intro e h
    simp only [toJson] at h
    cases hl : toJsonA b c a with
    | ok s => simp [hl] at h
    | error e' =>
      simp only [hl, Except.error.injEq] at h
      subst h
      obtain ⟨n, x, h1, he, h2⟩ := toJsonA_error hn hl
      obtain ⟨h3, p, h4⟩ := ih _ (Dict.mem_of_get? h1) h2
      exact ⟨h3, _, .attr h1 he h4⟩
  | _ => intro e h; simp [toJson] at h

/-- a value other than null at a place receives its own defaults -/
theorem setDefaults_at {b : Bool} {v w : SVal F} {p : List Step} (hp : v.At p w) : ∀ {v' : SVal F}, w ≠ .null →
    v.setDefaults b = .ok v' → ∃ w', w.setDefaults b = .ok w' ∧ v'.At p w' := by
  have nn : ∀ {x w : SVal F} {p : List Step}, x.At p w → w ≠ .null → x ≠ .null := by
    rintro x w p h hw rfl
    cases h
    exact hw rfl
  induction hp with
  | here v => exact fun _ h => ⟨_, h, .here _⟩
  | @item l n x w p hx _ ih =>
    intro v' hw h
    simp only [setDefaults] at h
    cases hl : setDefaultsL b l with
    | error e => simp [hl] at h
    | ok s =>
      simp only [hl, Except.ok.injEq] at h
      subst h
      obtain ⟨u, h1, h2⟩ := setDefaultsL_ok hl n x hx
      obtain ⟨u', h3, h4⟩ := ih hw h1
      exact ⟨u', h3, .item h2 h4⟩
  | @key d k x w p hx _ ih =>
    intro v' hw h
    simp only [setDefaults] at h
    cases hl : setDefaultsD b d with
    | error e => simp [hl] at h
    | ok s =>
      simp only [hl, Except.ok.injEq] at h
      subst h
      obtain ⟨u, h1, h2⟩ := setDefaultsD_ok hl k x hx
      obtain ⟨u', h3, h4⟩ := ih hw h1
      exact ⟨u', h3, .key h2 h4⟩
  | @attr c a k x w p hx he hr ih =>
    intro v' hw h
    simp only [setDefaults] at h
    cases hl : setDefaultsA b c a with
    | error e => simp [hl] at h
    | ok s =>
      simp only [hl, Except.ok.injEq] at h
      subst h
      obtain ⟨u, h1, h2⟩ := ((setDefaultsA_ok hl).2 k x hx).2 (nn hr hw)
      obtain ⟨u', h3, h4⟩ := ih hw h1
      exact ⟨u', h3, .attr h2 trivial h4⟩

theorem clean_leads {ver : Version} {v w : SVal F} {p : List Step}
    (hp : Leads (fun c k _ => ¬ (Version.lt ver Version.v38 = true ∧ k ∈ c.unsupportedOld)) v p w) : ∀ {v' : SVal F},
    v.clean ver = .ok v' → ∃ w', w.clean ver = .ok w' ∧ v'.At p w' := by
  induction hp with
  | here v => exact fun h => ⟨_, h, .here _⟩
  | @item l n x w p hx _ ih =>
    intro v' h
    simp only [clean] at h
    cases hl : cleanL ver l with
    | error e => simp [hl] at h
    | ok s =>
      simp only [hl, Except.ok.injEq] at h
      subst h
      obtain ⟨u, h1, h2⟩ := cleanL_ok hl n x hx
      obtain ⟨u', h3, h4⟩ := ih h1
      exact ⟨u', h3, .item h2 h4⟩
  | @key d k x w p hx _ ih =>
    intro v' h
    simp only [clean] at h
    cases hl : cleanD ver d with
    | error e => simp [hl] at h
    | ok s =>
      simp only [hl, Except.ok.injEq] at h
      subst h
      obtain ⟨u, h1, h2⟩ := cleanD_ok hl k x hx
      obtain ⟨u', h3, h4⟩ := ih h1
      exact ⟨u', h3, .key h2 h4⟩
  | @attr c a k x w p hx he hr ih =>
    intro v' h
    simp only [clean] at h
    cases hl : cleanA ver c a with
    | error e => simp [hl] at h
    | ok s =>
      simp only [hl, Except.ok.injEq] at h
      subst h
      obtain ⟨u, h1, h2⟩ := ((cleanA_ok hl).2 k x hx).2 he
      obtain ⟨u', h3, h4⟩ := ih h1
      exact ⟨u', h3, .attr h2 trivial h4⟩

/-! ### The traversals fail together -/

mutual
/-- nothing of another type inside -/
def pure : SVal F → Bool
  | .list l => pureL l
  | .dict d => pureD d
  | .obj _ a => pureD a
  | .other => false
  | _ => true
def pureL : List (SVal F) → Bool
  | [] => true
  | v :: r => pure v && pureL r
def pureD : List (Str × SVal F) → Bool
  | [] => true
  | (_, v) :: r => pure v && pureD r
end

mutual
theorem clean_pure (ver : Version) : ∀ {v : SVal F}, v.pure = true → ∃ w, v.clean ver = .ok w
  | .null, _ => ⟨_, rfl⟩
  | .bool _, _ => ⟨_, rfl⟩
  | .int _, _ => ⟨_, rfl⟩
  | .flt _, _ => ⟨_, rfl⟩
  | .str _, _ => ⟨_, rfl⟩
  | .other, h => by simp [pure] at h
  | .list l, h => by
    obtain ⟨w, hw⟩ := cleanL_pure ver (l := l) (by simpa [pure] using h)
    simp only [clean, hw]; exact ⟨_, rfl⟩
  | .dict d, h => by
    obtain ⟨w, hw⟩ := cleanD_pure ver (l := d) (by simpa [pure] using h)
    simp only [clean, hw]; exact ⟨_, rfl⟩
  | .obj c a, h => by
    obtain ⟨w, hw⟩ := cleanA_pure ver c (l := a) (by simpa [pure] using h)
    simp only [clean, hw]; exact ⟨_, rfl⟩
theorem cleanL_pure (ver : Version) : ∀ {l : List (SVal F)}, pureL l = true → ∃ w, cleanL ver l = .ok w
  | [], _ => ⟨_, rfl⟩
  | v :: r, h => by
    simp only [pureL, Bool.and_eq_true] at h
    obtain ⟨w, hw⟩ := clean_pure ver h.1
    obtain ⟨s, hs⟩ := cleanL_pure ver h.2
    exact ⟨w :: s, by simp only [cleanL, hw, hs]⟩
theorem cleanD_pure (ver : Version) : ∀ {l : List (Str × SVal F)}, pureD l = true → ∃ w, cleanD ver l = .ok w
  | [], _ => ⟨_, rfl⟩
  | (k, v) :: r, h => by
    simp only [pureD, Bool.and_eq_true] at h
    obtain ⟨w, hw⟩ := clean_pure ver h.1
    obtain ⟨s, hs⟩ := cleanD_pure ver h.2
    exact ⟨(k, w) :: s, by simp only [cleanD, hw, hs]⟩
theorem cleanA_pure (ver : Version) (c : Cls F) : ∀ {l : List (Str × SVal F)}, pureD l = true → ∃ w, cleanA ver c l = .ok w
  | [], _ => ⟨_, rfl⟩
  | (k, v) :: r, h => by
    simp only [pureD, Bool.and_eq_true] at h
    obtain ⟨w, hw⟩ := clean_pure ver h.1
    obtain ⟨s, hs⟩ := cleanA_pure ver c h.2
    by_cases hc : Version.lt ver Version.v38 = true ∧ k ∈ c.unsupportedOld
    · exact ⟨(k, .null) :: s, by simp only [cleanA, if_pos hc, hs]⟩
    · exact ⟨(k, w) :: s, by simp only [cleanA, if_neg hc, hw, hs]⟩
end

mutual
theorem pure_ofJ : ∀ v : JVal F, (ofJ v).pure = true
  | .null => rfl
  | .bool _ => rfl
  | .int _ => rfl
  | .flt _ => rfl
  | .str _ => rfl
  | .list l => by simp [ofJ, pure, pureL_ofJ l]
  | .dict d => by simp [ofJ, pure, pureD_ofJ d]
theorem pureL_ofJ : ∀ l : List (JVal F), pureL (ofJs l) = true
  | [] => rfl
  | v :: r => by simp [ofJs, pureL, pure_ofJ v, pureL_ofJ r]
theorem pureD_ofJ : ∀ l : List (Str × JVal F), pureD (ofJd l) = true
  | [] => rfl
  | (k, v) :: r => by simp [ofJd, pureD, pure_ofJ v, pureD_ofJ r]
end

theorem pureL_map {α : Type} {f : α → SVal F} (h : ∀ x, (f x).pure = true) : ∀ l : List α, pureL (l.map f) = true
  | [] => rfl
  | x :: r => by simp [pureL, h x, pureL_map h r]

theorem pureD_map {α : Type} {f : α → SVal F} (h : ∀ x, (f x).pure = true) : ∀ d : Dict α, pureD (dmap f d) = true
  | [] => rfl
  | (k, x) :: r => by
    have ih := pureD_map h r
    simp only [dmap] at ih
    simp [dmap, pureD, h x, ih]

theorem pure_slist {α : Type} {f : α → SVal F} (h : ∀ x, (f x).pure = true) (l : List α) : (slist f l).pure = true := by
  simp [slist, pure, pureL_map h]

theorem pure_sdict {α : Type} {f : α → SVal F} (h : ∀ x, (f x).pure = true) (l : Dict α) : (sdict f l).pure = true := by
  simp [sdict, pure, pureD_map h]

theorem pure_attrs (c : Cls F) (a : Attrs F) : (Attrs.sval c a).pure = true := by
  simp only [Attrs.sval, pure]
  exact pureD_map pure_ofJ a

end Spine.SVal

namespace Spine
open SVal
variable {F : Type} [PyRt F]

theorem AnimData.sval_pure (a : AnimData F) : a.sval.pure = true := by
  have l := fun (c : Cls F) => pure_slist (pure_attrs c)
  have att : ∀ x : Att F, x.sval.pure = true := fun x => pure_attrs ..
  have skin : ∀ x : Skin F, x.sval.pure = true := by
    intro x
    simp [Skin.sval, SVal.pure, pureD, pure_sdict (pure_sdict att)]
  have kf : ∀ x : SlotKf F, x.sval.pure = true := fun x => pure_attrs ..
  have st : ∀ x : SlotTl F, x.sval.pure = true := by intro x; simp [SlotTl.sval, SVal.pure, pureD, pure_slist kf]
  have bt : ∀ x : BoneTl F, x.sval.pure = true := by intro x; simp [BoneTl.sval, SVal.pure, pureD, l]
  have off : ∀ x : Str × Int, (offsetSval (F := F) x).pure = true := fun x => pure_attrs ..
  have dt : ∀ x : DrawTl F, x.sval.pure = true := by
    intro x; simp [DrawTl.sval, SVal.pure, pureD, pure_slist off, pure_ofJ]
  have an : ∀ x : Anim F, x.sval.pure = true := by
    intro x
    simp [Anim.sval, SVal.pure, pureD, pure_slist dt, l, pure_sdict (l _), pure_sdict (pure_sdict (l _)), pure_sdict bt,
      pure_sdict st, pure_sdict (pure_sdict (pure_sdict (l _)))]
  have bo : ∀ x : Bone F, x.sval.pure = true := fun x => pure_attrs ..
  have sl : ∀ x : Slot F, x.sval.pure = true := fun x => pure_attrs ..
  simp [AnimData.sval, SVal.pure, pureD, pure_slist bo, pure_slist sl, pure_slist skin, l, pure_sdict (pure_attrs _),
    pure_sdict an]

end Spine
