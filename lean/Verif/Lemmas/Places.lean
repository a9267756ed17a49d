import Verif.Spec.Places
import Verif.Lemmas.DataShape
/- Errors of the constructors travel from an object to the document (C24–C26). -/
set_option linter.unusedSectionVars false
set_option linter.unusedSimpArgs false
namespace Spine
open JVal Places
variable {F : Type} [PyRt F]
variable {α β γ : Type}

/-! ### Paths -/

namespace Places

theorem Reach.split {p q : List Step} {v w : JVal F} (h : Reach (p ++ q) v w) : ∃ u, Reach p v u ∧ Reach q u w := by
  induction p generalizing v with
  | nil => exact ⟨v, .here v, h⟩
  | cons s p ih =>
    cases h with
    | key h1 h2 => obtain ⟨u, h3, h4⟩ := ih h2; exact ⟨u, .key h1 h3, h4⟩
    | any h1 h2 => obtain ⟨u, h3, h4⟩ := ih h2; exact ⟨u, .any h1 h3, h4⟩
    | elem h1 h2 => obtain ⟨u, h3, h4⟩ := ih h2; exact ⟨u, .elem h1 h3, h4⟩

theorem Replace.split {p q : List Step} {v' v w' w : JVal F} (h : Replace (p ++ q) v' v w' w) :
    ∃ u' u, Replace p v' v u' u ∧ Replace q u' u w' w := by
  induction p generalizing v' v with
  | nil => exact ⟨v', v, .here v' v, h⟩
  | cons s p ih =>
    cases h with
    | key h1 h2 => obtain ⟨u', u, h3, h4⟩ := ih h2; exact ⟨u', u, .key h1 h3, h4⟩
    | any h2 => obtain ⟨u', u, h3, h4⟩ := ih h2; exact ⟨u', u, .any h3, h4⟩
    | elem h2 => obtain ⟨u', u, h3, h4⟩ := ih h2; exact ⟨u', u, .elem h3, h4⟩

theorem get?_mid {d1 d2 : Dict (JVal F)} {k : Str} {x : JVal F} (h : k ∉ Dict.keys d1) : Dict.get? (d1 ++ (k, x) :: d2) k = some x := by
  induction d1 with
  | nil => simp [Dict.get?]
  | cons p r ih =>
    simp only [Dict.keys, List.map_cons, List.mem_cons, not_or] at h
    simp only [List.cons_append, Dict.get?]
    rw [if_neg (fun e => h.1 e.symm)]
    exact ih h.2

theorem get?_mid_ne {d1 d2 : Dict (JVal F)} {k k' : Str} (x' x : JVal F) (h : k' ≠ k) :
    Dict.get? (d1 ++ (k, x) :: d2) k' = Dict.get? (d1 ++ (k, x') :: d2) k' := by
  induction d1 with
  | nil => simp only [List.nil_append, Dict.get?]; rw [if_neg (fun e => h e.symm), if_neg (fun e => h e.symm)]
  | cons p r ih => simp only [List.cons_append, Dict.get?, ih]

theorem get?_ins_ne {d1 d2 : Dict (JVal F)} {k k' : Str} (x : JVal F) (h : k' ≠ k) :
    Dict.get? (d1 ++ (k, x) :: d2) k' = Dict.get? (d1 ++ d2) k' := by
  induction d1 with
  | nil => simp only [List.nil_append, Dict.get?]; rw [if_neg (fun e => h e.symm)]
  | cons p r ih => simp only [List.cons_append, Dict.get?, ih]

theorem Replace.reach {p : List Step} {v' v w' w : JVal F} (h : Replace p v' v w' w) : Reach p v' w' := by
  induction h with
  | here v' v => exact .here v'
  | key h1 _ ih => exact .key (get?_mid h1) ih
  | @any k _ _ _ _ _ _ _ _ ih => exact .any (k := k) (by simp) ih
  | elem _ ih => exact .elem (by simp) ih

/-! ### How one constructor depends on another -/

/-- `f` runs `g` on everything at the end of the path: it succeeds only if they all do, and the error of one travels up -/
structure Runs (f : JVal F → Except Err α) (p : List Step) (g : JVal F → Except Err β) : Prop where
  sound : ∀ {v w : JVal F} {a : α}, f v = .ok a → Reach p v w → ∃ b, g w = .ok b
  carry : ∀ {v' v w' w : JVal F} {a : α} {x : Err}, f v' = .ok a → Replace p v' v w' w → g w = .error x → f v = .error x

theorem Runs.self (f : JVal F → Except Err α) : Runs f [] f where
  sound := by intro v w a h r; cases r; exact ⟨a, h⟩
  carry := by intro v' v w' w a x _ r h; cases r; exact h

theorem Runs.trans {f : JVal F → Except Err α} {g : JVal F → Except Err β} {h : JVal F → Except Err γ} {p q : List Step}
    (h1 : Runs f p g) (h2 : Runs g q h) : Runs f (p ++ q) h where
  sound := by
    intro v w a hf r
    obtain ⟨u, r1, r2⟩ := r.split
    obtain ⟨b, hb⟩ := h1.sound hf r1
    exact h2.sound hb r2
  carry := by
    intro v' v w' w a x hf r hw
    obtain ⟨u', u, r1, r2⟩ := r.split
    obtain ⟨b, hb⟩ := h1.sound hf r1.reach
    exact h1.carry hf r1 (h2.carry hb r2 hw)

theorem mapE_mid {f : α → Except Err β} {l1 l2 : List α} {x : α} {ys : List β} {e : Err} {x' : α}
    (h : mapE f (l1 ++ x' :: l2) = .ok ys) (hx : f x = .error e) : mapE f (l1 ++ x :: l2) = .error e := by
  induction l1 generalizing ys with
  | nil => simp only [List.nil_append, mapE, hx]
  | cons y l1 ih =>
    simp only [List.cons_append, mapE] at h ⊢
    cases h1 : f y with
    | error e' => rw [h1] at h; cases h
    | ok b =>
      rw [h1] at h
      cases h2 : mapE f (l1 ++ x' :: l2) with
      | error e' => rw [h2] at h; cases h
      | ok bs => rw [ih h2]

theorem Runs.list (f : JVal F → Except Err α) : Runs (fun v => (iter v).bind (mapE f)) [.elem] f where
  sound := by
    intro v w a h r
    cases r with
    | elem hm r =>
      cases r
      obtain ⟨y, _, hy⟩ := mapE_forth h w hm
      exact ⟨y, hy⟩
  carry := by
    intro v' v w' w a x h r hw
    cases r with
    | elem r => cases r; exact mapE_mid h hw

theorem mapD_mid {f : JVal F → Except Err α} {d1 d2 : Dict (JVal F)} {k : Str} {x' x : JVal F} {ys : Dict α} {e : Err}
    (h : mapD f (d1 ++ (k, x') :: d2) = .ok ys) (hx : f x = .error e) : mapD f (d1 ++ (k, x) :: d2) = .error e :=
  mapE_mid (f := fun p : Str × JVal F => match f p.2 with
    | .ok b => .ok (p.1, b)
    | .error e => .error e) h (by simp only [hx])

theorem Runs.dict {g : JVal F → Except Err (Dict (JVal F))} (hg : ∀ d, g (.dict d) = .ok d) (f : JVal F → Except Err α) :
    Runs (fun v => (g v).bind (mapD f)) [.any] f where
  sound := by
    intro v w a h r
    cases r with
    | any hm r =>
      cases r
      simp only [hg] at h
      exact mapD_forth h _ hm
  carry := by
    intro v' v w' w a x h r hw
    cases r with
    | any r =>
      cases r
      simp only [hg] at h ⊢
      exact mapD_mid h hw

/-! ### Objects -/

/-- the outcome without the value -/
def outcomeOf (x : Except Err α) : Except Err Unit := x.map (fun _ => ())

theorem outcomeOf_ok {x : Except Err α} : outcomeOf x = .ok () ↔ ∃ a, x = .ok a := by
  cases x <;> simp [outcomeOf, Except.map]

theorem outcomeOf_error {x : Except Err α} {e : Err} : outcomeOf x = .error e ↔ x = .error e := by
  cases x <;> simp [outcomeOf, Except.map]

/-- constructors of attributes, run in this order -/
abbrev Parts (F : Type) := List (Str × (Option (JVal F) → Except Err Unit))

def runParts (d : Dict (JVal F)) : Parts F → Except Err Unit
  | [] => .ok ()
  | p :: r => (p.2 (Dict.get? d p.1)).bind (fun _ => runParts d r)

/-- an object constructor: some attributes, the check of the keys, other attributes -/
def RunsAs (f : JVal F → Except Err α) (pre : Parts F) (known req : List Str) (post : Parts F) : Prop :=
  ∀ d, outcomeOf (f (.dict d)) = (runParts d pre).bind (fun _ => (Cls.check known req d).bind (fun _ => runParts d post))

theorem runParts_ok {d : Dict (JVal F)} {l : Parts F} : runParts d l = .ok () ↔ ∀ p ∈ l, p.2 (Dict.get? d p.1) = .ok () := by
  induction l with
  | nil => simp [runParts]
  | cons p r ih =>
    simp only [runParts, List.mem_cons, forall_eq_or_imp]
    cases h : p.2 (Dict.get? d p.1) with
    | error e => simp [Except.bind]
    | ok u => simp only [Except.bind, ih, true_and]

theorem runParts_congr {d d' : Dict (JVal F)} {l : Parts F} (h : ∀ p ∈ l, Dict.get? d p.1 = Dict.get? d' p.1) :
    runParts d l = runParts d' l := by
  induction l with
  | nil => rfl
  | cons p r ih =>
    simp only [runParts]
    rw [h p (by simp), ih (fun q hq => h q (by simp [hq]))]

theorem check_congr {known req : List Str} {d d' : Dict (JVal F)} (h : Dict.keys d = Dict.keys d') :
    Cls.check known req d = Cls.check known req d' := by unfold Cls.check; rw [h]

theorem RunsAs.ok {f : JVal F → Except Err α} {pre post : Parts F} {known req : List Str} (h : RunsAs f pre known req post)
    {d : Dict (JVal F)} {a : α} (ha : f (.dict d) = .ok a) :
    runParts d pre = .ok () ∧ ((∀ k ∈ Dict.keys d, k ∈ known) ∧ ∀ k ∈ req, k ∈ Dict.keys d) ∧ runParts d post = .ok () := by
  have h1 := h d
  rw [outcomeOf_ok.2 ⟨a, ha⟩] at h1
  obtain ⟨_, h2, h3⟩ := bindOk h1.symm
  obtain ⟨_, h4, h5⟩ := bindOk h3
  exact ⟨h2, Cls.check_iff.1 h4, h5⟩

/-- the attribute `k` -/
theorem RunsAs.runs {f : JVal F → Except Err α} {pre post : Parts F} {known req : List Str} (h : RunsAs f pre known req post)
    (hn : ((pre ++ post).map (·.1)).Nodup) {k : Str} {s : Option (JVal F) → Except Err Unit} (hk : (k, s) ∈ pre ++ post)
    {g : JVal F → Except Err β} (hg : ∀ v, s (some v) = outcomeOf (g v)) : Runs f [.key k] g where
  sound := by
    intro v w a ha r
    cases r with
    | key h1 r =>
      cases r
      obtain ⟨h2, _, h3⟩ := h.ok ha
      have := (runParts_ok (l := pre ++ post)).2 (by
        intro p hp
        rcases List.mem_append.1 hp with hp | hp
        · exact runParts_ok.1 h2 p hp
        · exact runParts_ok.1 h3 p hp)
      have := runParts_ok.1 this _ hk
      simp only [h1, hg] at this
      exact outcomeOf_ok.1 this
  carry := by
    intro v' v w' w a x ha r hw
    cases r with
    | @key _ _ d1 d2 _ _ _ _ h1 r =>
      cases r
      obtain ⟨h2, ⟨hc1, hc2⟩, h3⟩ := h.ok ha
      rw [← outcomeOf_error, h]
      have he : s (Dict.get? (d1 ++ (k, w) :: d2) k) = .error x := by
        rw [get?_mid h1, hg, outcomeOf_error.2 hw]
      have hsame : ∀ {l : Parts F}, k ∉ l.map (·.1) → runParts (d1 ++ (k, w) :: d2) l = runParts (d1 ++ (k, w') :: d2) l := by
        intro l hl
        refine runParts_congr ?_
        intro p hp
        exact get?_mid_ne _ _ (fun e => hl (e ▸ List.mem_map_of_mem hp))
      have hfail : ∀ {l : Parts F}, (l.map (·.1)).Nodup → (k, s) ∈ l → runParts (d1 ++ (k, w') :: d2) l = .ok () →
          runParts (d1 ++ (k, w) :: d2) l = .error x := by
        intro l
        induction l with
        | nil => intro _ hm; cases hm
        | cons p r ih =>
          intro hnd hm hok
          rw [List.map_cons, List.nodup_cons] at hnd
          simp only [runParts] at hok ⊢
          rcases List.mem_cons.1 hm with e | hm
          · subst e
            simp only [he]; rfl
          · have hne : p.1 ≠ k := fun e => hnd.1 (e ▸ List.mem_map_of_mem (f := (·.1)) hm)
            obtain ⟨_, h4, h5⟩ := bindOk hok
            rw [get?_mid_ne w' w hne, h4]
            exact ih hnd.2 hm h5
      have hkeys : Dict.keys (d1 ++ (k, w) :: d2) = Dict.keys (d1 ++ (k, w') :: d2) := by simp [Dict.keys]
      rw [List.map_append, List.nodup_append] at hn
      rcases List.mem_append.1 hk with hk | hk
      · rw [hfail hn.1 hk h2]; rfl
      · have hnp : k ∉ pre.map (·.1) := fun hc => hn.2.2 k hc k (List.mem_map_of_mem (f := (·.1)) hk) rfl
        rw [hsame hnp, h2, check_congr hkeys, Cls.check_ok hc1 hc2, Except.bind, Except.bind]
        exact hfail hn.2.1 hk h3

theorem check_insert {known req : List Str} {d1 d2 : Dict (JVal F)} (hc1 : ∀ k ∈ Dict.keys (d1 ++ d2), k ∈ known) {k : Str}
    (hk : k ∉ known) (v : JVal F) : Cls.check known req (d1 ++ (k, v) :: d2) = .error (.unsupportedAttrs [k]) := by
  unfold Cls.check
  have e1 : ∀ l : Dict (JVal F), (∀ k ∈ Dict.keys l, k ∈ known) → (Dict.keys l).filter (fun k => decide (k ∉ known)) = [] := by
    intro l hl
    rw [List.filter_eq_nil_iff]; intro x hx; simpa using hl x hx
  have hd : Dict.keys (d1 ++ d2) = Dict.keys d1 ++ Dict.keys d2 := by simp [Dict.keys]
  rw [hd] at hc1
  have e2 : (Dict.keys (d1 ++ (k, v) :: d2)).filter (fun k => decide (k ∉ known)) = [k] := by
    have : Dict.keys (d1 ++ (k, v) :: d2) = Dict.keys d1 ++ k :: Dict.keys d2 := by simp [Dict.keys]
    rw [this, List.filter_append, List.filter_cons, e1 d1 (fun x hx => hc1 x (by simp [hx])),
      e1 d2 (fun x hx => hc1 x (by simp [hx])), if_pos (by simpa using hk)]
    rfl
  rw [e2]; simp

theorem check_delete {known req : List Str} (hn : req.Nodup) {d1 d2 : Dict (JVal F)} {k : Str} {v : JVal F}
    (hc1 : ∀ x ∈ Dict.keys (d1 ++ (k, v) :: d2), x ∈ known) (hc2 : ∀ x ∈ req, x ∈ Dict.keys (d1 ++ (k, v) :: d2)) (hk : k ∈ req)
    (h1 : k ∉ Dict.keys d1) (h2 : k ∉ Dict.keys d2) : Cls.check known req (d1 ++ d2) = .error (.missingRequired [k]) := by
  have e0 : Dict.keys (d1 ++ (k, v) :: d2) = Dict.keys d1 ++ k :: Dict.keys d2 := by simp [Dict.keys]
  have e0' : Dict.keys (d1 ++ d2) = Dict.keys d1 ++ Dict.keys d2 := by simp [Dict.keys]
  rw [e0] at hc1 hc2
  unfold Cls.check
  rw [e0']
  have e1 : (Dict.keys d1 ++ Dict.keys d2).filter (fun k => decide (k ∉ known)) = [] := by
    rw [List.filter_eq_nil_iff]
    intro x hx
    have := hc1 x (by simp only [List.mem_append, List.mem_cons] at hx ⊢; grind)
    simpa using this
  have e2 : req.filter (fun x => decide (x ∉ Dict.keys d1 ++ Dict.keys d2)) = [k] := by
    have : req.filter (fun x => decide (x ∉ Dict.keys d1 ++ Dict.keys d2)) = req.filter (fun x => x == k) := by
      refine List.filter_congr ?_
      intro x hx
      have := hc2 x hx
      simp only [List.mem_append, List.mem_cons] at this
      by_cases e : x = k
      · subst e; simp [h1, h2]
      · simp only [e, false_or] at this
        simp only [List.mem_append, beq_iff_eq, e, this, not_true_eq_false, decide_false]
        simp [e]
    rw [this]
    clear this hc2 e1
    induction req with
    | nil => cases hk
    | cons y r ih =>
      rw [List.nodup_cons] at hn
      rcases List.mem_cons.1 hk with rfl | hk
      · rw [List.filter_cons, if_pos (by simp)]
        congr 1
        rw [List.filter_eq_nil_iff]
        intro x hx hc
        have := eq_of_beq hc; subst this
        exact hn.1 hx
      · rw [List.filter_cons, if_neg (by simpa using fun e : y = k => hn.1 (e ▸ hk))]
        exact ih hn.2 hk
  rw [e1, e2]; simp

end Places
end Spine
