import Verif.Lemmas.SimNew
/-
`parse_skin_attachment_data` and `Skin38` on the heap: the copy of the attachments is filled entry by entry.
-/
set_option linter.unusedSectionVars false
namespace Spine
namespace Alias
open M
variable {F : Type} [PyRt F] {B : Nat}

/-- like `Step`, for a computation that may change the objects of `S` -/
def StepS {α β : Type} (S : Nat → Prop) (N : Nat → Prop) (h : Heap F) (m : M F β) (v : Except Err α)
    (P : α → β → (Nat → Prop) → Heap F → Prop) : Prop :=
  match v with
  | .ok x => ∃ y N' h', m h = (.ok y, h') ∧ Ext N h S N' h' ∧ P x y N' h'
  | .error .unmodelled => True
  | .error e => ∃ N' h', m h = (.error e, h') ∧ Ext N h S N' h'

namespace StepS
variable {α β γ δ : Type} {N : Nat → Prop} {h : Heap F} {S S' : Nat → Prop}

theorem ok {m : M F β} {x : α} {P : α → β → (Nat → Prop) → Heap F → Prop} {y : β} {N' : Nat → Prop} {h' : Heap F} (h1 : m h = (.ok y, h'))
    (h2 : Ext N h S N' h') (h3 : P x y N' h') : StepS S N h m (.ok x) P := ⟨y, N', h', h1, h2, h3⟩

theorem error {m : M F β} {e : Err} {P : α → β → (Nat → Prop) → Heap F → Prop} {N' : Nat → Prop} {h' : Heap F} (h1 : m h = (.error e, h'))
    (h2 : Ext N h S N' h') : StepS S N h m (.error e) P := by
  unfold StepS
  cases e <;> first | trivial | exact ⟨N', h', h1, h2⟩

theorem skip {m : M F β} {P : α → β → (Nat → Prop) → Heap F → Prop} : StepS S N h m (.error .unmodelled) P := trivial

theorem of_error {m : M F β} {e : Err} {P : α → β → (Nat → Prop) → Heap F → Prop} (hs : StepS (α := α) S N h m (.error e) P)
    (he : e ≠ .unmodelled) : ∃ N' h', m h = (.error e, h') ∧ Ext N h S N' h' := by
  cases e <;> first | exact absurd rfl he | exact hs

/-- other objects may change; what is left -/
theorem imp {m : M F β} {v : Except Err α} {P Q : α → β → (Nat → Prop) → Heap F → Prop} (hs : StepS S N h m v P)
    (hS : ∀ a, S a → a < h.length → S' a)
    (hi : ∀ x y N' h', v = .ok x → Ext N h S N' h' → P x y N' h' → Q x y N' h') : StepS S' N h m v Q := by
  cases v with
  | ok x =>
    obtain ⟨y, N', h', h1, h2, h3⟩ := hs
    exact ⟨y, N', h', h1, h2.mono hS, hi x y N' h' rfl h2 h3⟩
  | error e =>
    by_cases he : e = .unmodelled
    · subst he; trivial
    · obtain ⟨N', h', h1, h2⟩ := hs.of_error he
      exact error h1 (h2.mono hS)

theorem bind {m : M F β} {v : Except Err α} {P : α → β → (Nat → Prop) → Heap F → Prop} {k : β → M F δ} {kv : α → Except Err γ}
    {Q : γ → δ → (Nat → Prop) → Heap F → Prop} (hs : StepS S N h m v P) (hS : ∀ a, S' a → a < h.length → S a)
    (hk : ∀ x y N' h', v = .ok x → Ext N h S N' h' → P x y N' h' → StepS S' N' h' (k y) (kv x) Q) : StepS S N h (m >>= k) (v >>= kv) Q := by
  cases v with
  | ok x =>
    obtain ⟨y, N', h', h1, h2, h3⟩ := hs
    have h4 := hk x y N' h' rfl h2 h3
    show StepS S N h (m >>= k) (kv x) Q
    have e1 : (m >>= k) h = k y h' := run_bind h1
    cases hv : kv x with
    | ok z =>
      rw [hv] at h4
      obtain ⟨w, N2, h2', g1, g2, g3⟩ := h4
      exact ⟨w, N2, h2', by rw [e1, g1], h2.trans g2 hS, g3⟩
    | error e =>
      rw [hv] at h4
      by_cases he : e = .unmodelled
      · subst he; trivial
      · obtain ⟨N2, h2', g1, g2⟩ := h4.of_error he
        exact error (by rw [e1, g1]) (h2.trans g2 hS)
  | error e =>
    show StepS S N h (m >>= k) (.error e) Q
    by_cases he : e = .unmodelled
    · subst he; trivial
    · obtain ⟨N2, h2', g1, g2⟩ := hs.of_error he
      exact error (run_fail g1) g2

end StepS

theorem Step.toS {α β : Type} {N : Nat → Prop} {h : Heap F} {m : M F β} {v : Except Err α} {P : α → β → (Nat → Prop) → Heap F → Prop}
    (S : Nat → Prop) (hs : Step N h m v P) : StepS S N h m v P := by
  cases v with
  | ok x =>
    obtain ⟨y, N', h', h1, h2, h3⟩ := hs
    exact .ok h1 (h2.mono (fun _ h _ => h.elim)) h3
  | error e =>
    by_cases he : e = .unmodelled
    · subst he; exact .skip
    · obtain ⟨N', h', h1, h2⟩ := hs.of_error he
      exact .error h1 (h2.mono (fun _ h _ => h.elim))

/-- first a step that changes nothing -/
theorem Step.bindS {α β γ δ : Type} {N : Nat → Prop} {h : Heap F} {S S' : Nat → Prop} {m : M F β} {v : Except Err α}
    {P : α → β → (Nat → Prop) → Heap F → Prop} {k : β → M F δ} {kv : α → Except Err γ}
    {Q : γ → δ → (Nat → Prop) → Heap F → Prop} (hs : Step N h m v P) (hS : ∀ a, S' a → a < h.length → S a)
    (hk : ∀ x y N' h', v = .ok x → Ext N h Nil N' h' → P x y N' h' → StepS S' N' h' (k y) (kv x) Q) : StepS S N h (m >>= k) (v >>= kv) Q := by
  have h1 : StepS Nil N h m v (fun x y N' h' => Ext N h Nil N' h' ∧ P x y N' h') :=
    (hs.toS Nil).imp (fun _ h _ => h) (fun _ _ _ _ _ e h => ⟨e, h⟩)
  exact (h1.imp (S' := S) (fun _ h _ => h.elim) (fun _ _ _ _ _ _ h => h)).bind hS (fun x y N' h' e1 _ h2 => hk x y N' h' e1 h2.1 h2.2)

/-- only new objects change -/
theorem StepS.toStep {α β : Type} {N : Nat → Prop} {h : Heap F} {m : M F β} {v : Except Err α} {P : α → β → (Nat → Prop) → Heap F → Prop}
    {S : Nat → Prop} (hs : StepS S N h m v P) (hS : ∀ a, S a → h.length ≤ a) : Step N h m v P := by
  have hm : ∀ a, S a → a < h.length → Nil a := fun a h1 h2 => absurd h2 (Nat.not_lt.mpr (hS a h1))
  cases v with
  | ok x =>
    obtain ⟨y, N', h', h1, h2, h3⟩ := hs
    exact .ok h1 (h2.mono hm) h3
  | error e =>
    by_cases he : e = .unmodelled
    · subst he; exact .skip
    · obtain ⟨N', h', h1, h2⟩ := hs.of_error he
      exact .error h1 (h2.mono hm)

/-- the value model looks at the result once more -/
theorem Step.after {α β γ : Type} {N : Nat → Prop} {h : Heap F} {m : M F β} {v : Except Err α} {P : α → β → (Nat → Prop) → Heap F → Prop}
    {kv : α → Except Err γ} {Q : γ → β → (Nat → Prop) → Heap F → Prop} (hs : Step N h m v P)
    (hk : ∀ x, kv x = .error .unmodelled ∨ ∃ z, kv x = .ok z ∧ ∀ y N' h', v = .ok x → P x y N' h' → Q z y N' h') :
    Step N h m (v >>= kv) Q := by
  cases v with
  | ok x =>
    obtain ⟨y, N', h', h1, h2, h3⟩ := hs.of_ok
    show Step N h m (kv x) Q
    rcases hk x with e | ⟨z, e, hq⟩
    · rw [e]; exact .skip
    · rw [e]; exact .ok h1 h2 (hq y N' h' rfl h3)
  | error e =>
    show Step N h m (.error e) Q
    by_cases he : e = .unmodelled
    · subst he; exact .skip
    · obtain ⟨N', h', h1, h2⟩ := hs.of_error he
      exact .error h1 h2

/-! ### One attachment -/

/-- the new attachment object -/
def newAtt (r : Ref F) : M F (Ref F) := do
  let x ← itemsOf r
  let k ← lift (kindOf x)
  newLeaf (.att k) r

theorem kindOf_eq {N : Nat → Prop} {h : Heap F} {x : Dict (Ref F)} {d : Dict (JVal F)} (hx : FOk B N h x d) : kindOf x = Att.kindOf d := by
  unfold kindOf
  rcases hx.get s!!"type" with ⟨h1, h2⟩ | ⟨r, j, h1, h2, h3⟩
  · rw [h1]
    show Att.kindOf (F := F) [] = _
    simp only [Att.kindOf, h2, Dict.get?]
  · rw [h1]
    cases readJ_iff.mp h3.2 <;> simp [Att.kindOf, h2, Dict.get?]

theorem attInit_eq (v : JVal F) : Att.init v = (do
    let d ← Spine.itemsOf v
    let k ← Att.kindOf d
    let a ← (AttKind.cls k).init v
    if Att.typed a then return { kind := k, attrs := a } else .error .unmodelled) := by
  cases v <;> rfl

theorem newAtt_makes : Makes B (newAtt (F := F)) Att.init (Pre 1 Att.setDefaults tAtt) := by
  intro N h r j hz hr
  rw [attInit_eq]
  unfold newAtt
  refine (itemsOf_step hz hr).bind ?_
  rintro d x N1 h1 - e1 g1
  rw [kindOf_eq g1]
  refine (Step.lift e1.zone).bind ?_
  rintro k k' N2 h2 - e2 rfl
  refine (newLeaf_makes (.att k) N2 h2 r j e2.zone ((hr.ext hz e1).ext e1.zone e2)).after (fun a => ?_)
  by_cases ht : Att.typed a = true
  · refine .inr ⟨⟨k, a⟩, by simp only [ht, if_true]; rfl, ?_⟩
    rintro y N3 h3 hi ⟨t, rfl, g2⟩
    refine ⟨_, ?_, g2.since (Nat.le_trans e1.len e2.len)⟩
    refine ⟨fun b => tAttrs_sd (leaf_att k) b a, tAttrs_uniq ?_, tAttrs_height _ _⟩
    rw [Cls.keys_init hi]
    exact (leaf_att k).1
  · exact .inl (by simp only [ht]; rfl)

/-! ### The attachments of a slot -/

theorem run_subscript {h : Heap F} {a : Nat} {d : Dict (Ref F)} {k : Str} {v : Ref F} (ho : h[a]? = some (.dict d)) (hk : Dict.get? d k = some v) :
    subscript (.ptr a) k h = (.ok v, h) := by
  unfold subscript
  simp only [run_bind (run_deref ho), hk]
  rfl

theorem run_setItem {h : Heap F} {a : Nat} {d : Dict (Ref F)} {k : Str} {v : Ref F} (ho : h[a]? = some (.dict d)) :
    setItem (.ptr a) k v h = (.ok (), h.set a (.dict (Dict.set d k v))) := by
  unfold setItem
  simp only [run_bind (run_deref ho)]
  rfl

theorem bind_pureM {α : Type} (m : M F α) : (m >>= fun x => pure x) = m := by
  funext h
  rw [bind_eq]
  rcases m h with ⟨x | x, g⟩ <;> rfl

/-- replaces the entries of the copy under `k` by new attachments -/
def attBody (a' : Nat) (k : Str) (q : Str × Ref F) : M F Unit := do
  let o ← newAtt q.2
  let s ← subscript (.ptr a') k
  setItem s q.1 o

/-- the entries of the copy `b'`, found under the key `k` of `a'`, are replaced by new attachments -/
theorem attLoop {a' b' : Nat} {d' : Dict (Ref F)} {k : Str} (hk : Dict.get? d' k = some (.ptr b')) (hab : a' ≠ b') :
    ∀ {e : Dict (Ref F)} {ej : Dict (JVal F)} {N : Nat → Prop} {h : Heap F} {c1 c2 : Dict (Ref F)} {ts : List (Str × Tree F)} {S : Nat → Prop},
      Zone N h → FOk B N h e ej → h[a']? = some (.dict d') → h[b']? = some (.dict (c1 ++ c2)) → ¬ N b' →
      c2.map (·.1) = e.map (·.1) → ((c1 ++ c2).map (·.1)).Nodup → RepK B N h c1 ts S → (∀ a, S a → a < h.length ∧ a ≠ b') →
      StepS (fun a => a = b') N h (each (attBody a' k) e) (mapD Att.init ej)
        (fun xs _ N' h' => ∃ c ts', h'[b']? = some (.dict c) ∧ All₂ (fun p q => p.1 = q.1 ∧ Pre 1 Att.setDefaults tAtt p.2 q.2) xs ts' ∧
          RepK B N' h' c (ts ++ ts') (Grown S h))
  | [], _, N, h, c1, c2, ts, S, hz, .nil, _, hb, _, hc, _, hr, hS => by
    have : c2 = [] := by simpa using hc
    subst this
    exact .ok (x := []) (y := ()) rfl (.refl hz _) ⟨c1, [], by simpa using hb, .nil, by
      rw [List.append_nil]; exact hr.mono (fun a ha => Or.inl ha)⟩
  | q :: e, _, N, h, c1, [], ts, S, _, .cons _ _, _, _, _, hc, _, _, _ => by simp at hc
  | (q, r) :: e, _, N, h, c1, (q', r') :: c2, ts, S, hz, .cons (y := (qj, j)) (m := ej) h1 h2, ha, hb, hn, hc, hu, hr, hS => by
    have e0 : q' = q := by simpa using (List.cons.inj hc).1
    subst e0
    have hq : q' = qj := h1.1
    subst hq
    have hal := (List.getElem?_eq_some_iff.mp ha).1
    have hbl := (List.getElem?_eq_some_iff.mp hb).1
    rw [mapD_eq, mapE_cons]
    show StepS _ N h ((newAtt r >>= fun o => subscript (.ptr a') k >>= fun s => setItem s q' o) >>= fun _ => each _ e)
      ((Att.init j >>= fun y => pure (q', y)) >>= _) _
    rw [bind_assocM, bind_assoc]
    refine (newAtt_makes N h r j hz h1.2).bindS (fun _ h _ => h) ?_
    rintro x o N1 g1 - e1 ⟨t, t1, p1⟩
    have ha1 : g1[a']? = some (.dict d') := by rw [e1.keep a' hal (.inr id)]; exact ha
    have hb1 : g1[b']? = some (.dict (c1 ++ (q', r') :: c2)) := by rw [e1.keep b' hbl (.inr id)]; exact hb
    have hn1 : ¬ N1 b' := fun hn' => hn (e1.old b' hbl hn')
    have hu1 : q' ∉ c1.map (·.1) := by
      rw [List.map_append, List.map_cons, List.nodup_append] at hu
      exact fun hq => hu.2.2 q' hq q' (by simp) rfl
    have hset : Dict.set (c1 ++ (q', r') :: c2) q' o = (c1 ++ [(q', o)]) ++ c2 := by rw [dict_set_mid hu1]; simp
    have e2 : Ext N1 g1 (fun a => a = b') N1 (g1.set b' (.dict ((c1 ++ [(q', o)]) ++ c2))) := Ext.set e1.zone _ rfl hn1
    have hbg : b' < g1.length := Nat.lt_of_lt_of_le hbl e1.len
    have hr2 : RepK B N1 (g1.set b' (.dict ((c1 ++ [(q', o)]) ++ c2))) (c1 ++ [(q', o)]) (ts ++ [(q', t)])
        (fun a => S a ∨ Btw h.length g1.length a) := by
      refine ((hr.frame hz e1 (fun _ h _ _ => h)).snoc (k := q') p1 ?_).frame e1.zone e2 ?_
      · intro a h3 h4; have := (hS a h3).1; have := h4.1; omega
      · rintro a rfl (h3 | h3) _
        · exact (hS _ h3).2 rfl
        · have := h3.1; omega
    have hS2 : ∀ a, S a ∨ Btw h.length g1.length a → a < (g1.set b' (.dict ((c1 ++ [(q', o)]) ++ c2))).length ∧ a ≠ b' := by
      intro a h3
      rw [List.length_set]
      rcases h3 with h3 | h3
      · exact ⟨Nat.lt_of_lt_of_le (hS a h3).1 e1.len, (hS a h3).2⟩
      · exact ⟨h3.2, by have := h3.1; omega⟩
    have ih := attLoop hk hab (N := N1) (c1 := c1 ++ [(q', o)]) (c2 := c2) e2.zone
      ((FOk.ext hz e1 h2).ext e1.zone e2)
      (by rw [e2.keep a' (Nat.lt_of_lt_of_le hal e1.len) (.inr hab)]; exact ha1) (List.getElem?_set_self hbg) hn1
      (List.cons.inj hc).2 (by simpa using hu) hr2 hS2
    refine StepS.bind (P := fun (p : Str × Att F) _ N' h' => p = (q', x) ∧ N' = N1 ∧ h' = g1.set b' (.dict ((c1 ++ [(q', o)]) ++ c2)))
      (S' := fun a => a = b') ?_ (fun _ h _ => h) ?_
    · refine .ok (y := ()) ?_ e2 ⟨rfl, rfl, rfl⟩
      rw [run_bind (run_subscript ha1 hk), run_setItem hb1, hset]
    · rintro _ _ N2 g2 - - ⟨rfl, rfl, rfl⟩
      rw [mapD_eq] at ih
      show StepS _ _ _ (each (attBody a' k) e) (_ >>= _) _
      rw [← bind_pureM (each (attBody a' k) e)]
      refine ih.bind (S' := fun a => a = b') (fun _ h _ => h) ?_
      rintro xs _ N3 g3 - e3 ⟨c, ts', f1, f2, f3⟩
      refine .ok (y := ()) rfl (.refl e3.zone _) ⟨c, (q', t) :: ts', f1, .cons ⟨rfl, t1⟩ f2, ?_⟩
      have : ts ++ [(q', t)] ++ ts' = ts ++ (q', t) :: ts' := by simp
      rw [this] at f3
      refine f3.mono ?_
      rintro a ((h3 | h3) | h3)
      · exact .inl h3
      · exact .inr h3.1
      · rw [List.length_set] at h3
        exact .inr (Nat.le_trans e1.len h3)

/-! ### The slots of a skin -/

theorem FOk.mem_in {N : Nat → Prop} {h : Heap F} {d : Dict (Ref F)} {e : Dict (JVal F)} (hr : FOk B N h d e) : ∀ p ∈ d, In N p.2 := by
  intro p hp
  induction hr with
  | nil => cases hp
  | cons y _ ih =>
    rcases List.mem_cons.mp hp with rfl | hp
    · exact y.2.1
    · exact ih hp

theorem dict_get_mid {α : Type} {d e : Dict α} {k : Str} {v : α} (hn : k ∉ d.map (·.1)) : Dict.get? (d ++ (k, v) :: e) k = some v := by
  induction d with
  | nil => simp [Dict.get?]
  | cons p d ih =>
    obtain ⟨k', w⟩ := p
    simp only [List.map_cons, List.mem_cons, not_or] at hn
    simp only [List.cons_append, Dict.get?, if_neg (fun h => hn.1 (Eq.symm h))]
    exact ih hn.2


/-- the copy of an entry: a dictionary of its own with the same keys -/
def CellOk (n a' : Nat) (N : Nat → Prop) (h : Heap F) (S : Nat → Prop) (p q : Str × Ref F) : Prop :=
  p.1 = q.1 ∧ ∀ b e, p.2 = .ptr b → h[b]? = some (.dict e) →
    ∃ b' c, q.2 = .ptr b' ∧ h[b']? = some (.dict c) ∧ c.map (·.1) = e.map (·.1) ∧ ¬ N b' ∧ b' ≠ a' ∧ ¬ S b' ∧ n ≤ b'

/-- no object under two keys -/
def Apart (d : Dict (Ref F)) : Prop := d.Pairwise (fun p q => ∀ b, p.2 = .ptr b → q.2 ≠ .ptr b)

/-- one slot: the entries are traversed and replaced in the copy -/
def slotBody (a' : Nat) (p : Str × Ref F) : M F Unit := do
  let e ← level p.2
  each (attBody a' p.1) e

theorem level_step {N : Nat → Prop} {h : Heap F} {r : Ref F} {j : JVal F} (hz : Zone N h) (hr : JOk B N h r j) :
    Step N h (level r) (Skin.level j) (fun x y N' h' => N' = N ∧ h' = h ∧ FOk B N h y x ∧ j = .dict x ∧
      ∃ b, r = .ptr b ∧ h[b]? = some (.dict y)) := by
  have hr0 := hr
  cases readJ_iff.mp hr.2 with
  | null => exact .skip
  | bool b => exact .skip
  | int b => exact .skip
  | flt b => exact .skip
  | str s => exact .skip
  | list a l js ho h2 => exact .skip
  | dict a l js ho h2 =>
    obtain ⟨a', d, e1, h3, h4, h5⟩ := JOk.dict hz hr0
    cases e1
    refine .ok (y := d) ?_ (.refl hz _) ⟨rfl, rfl, h5, rfl, a, rfl, h4⟩
    unfold level
    simp only [run_bind (run_deref h4)]
    rfl

theorem slotLoop {n a' : Nat} :
    ∀ {dd : Dict (Ref F)} {dj : Dict (JVal F)} {N : Nat → Prop} {h : Heap F} {d1 d2 : Dict (Ref F)} {ts : List (Str × Tree F)} {S : Nat → Prop},
      Zone N h → FOk B N h dd dj → (∀ p ∈ dj, ∀ e, p.2 = .dict e → (e.map (·.1)).Nodup) → h[a']? = some (.dict (d1 ++ d2)) →
      ((d1 ++ d2).map (·.1)).Nodup → All₂ (CellOk n a' N h S) dd d2 → Apart d2 → RepK B N h d1 ts S →
      (∀ a, S a → a < h.length ∧ a ≠ a' ∧ n ≤ a) → n ≤ h.length → a' < h.length →
      StepS (fun a => n ≤ a ∧ a ≠ a') N h (each (slotBody a') dd) (mapD (fun w => do
        let e ← Skin.level w
        mapD Att.init e) dj)
        (fun xs _ N' h' => ∃ ts', All₂ (fun p q => p.1 = q.1 ∧ TD (Pre 1 Att.setDefaults tAtt) p.2 q.2) xs ts' ∧
          RepK B N' h' (d1 ++ d2) (ts ++ ts') (fun a => n ≤ a ∧ a ≠ a' ∧ a < h'.length))
  | [], _, N, h, d1, [], ts, S, hz, .nil, _, _, _, .nil, _, hr, hS, hn, _ => by
    refine .ok (x := []) (y := ()) rfl (.refl hz _) ⟨[], .nil, ?_⟩
    rw [List.append_nil, List.append_nil]
    exact hr.mono (fun a ha => ⟨(hS a ha).2.2, (hS a ha).2.1, (hS a ha).1⟩)
  | (k, r) :: dd, _, N, h, d1, (k', r') :: d2, ts, S, hz, .cons (y := (kj, j)) (m := dj) h1 h2, hp, ha, hu, .cons c1 c2, hA, hr, hS, hn, hl => by
    have e0 : k = k' := c1.1
    subst e0
    have e1 : k = kj := h1.1
    subst e1
    rw [mapD_eq, mapE_cons]
    show StepS _ N h ((level r >>= fun e => each (attBody a' k) e) >>= fun _ => each _ dd)
      (((Skin.level j >>= fun e => mapD Att.init e) >>= fun y => pure (k, y)) >>= _) _
    rw [bind_assocM, bind_assoc, bind_assoc]
    refine (level_step hz h1.2).bindS (fun _ h _ => h) ?_
    rintro ej e N1 g1 - - ⟨rfl, rfl, f1, rfl, b, rfl, f2⟩
    obtain ⟨b', c, rfl, q2, q3, q4, q5, q6, q7⟩ := c1.2 b e rfl f2
    have hbl := (List.getElem?_eq_some_iff.mp q2).1
    have hk : Dict.get? (d1 ++ (k, .ptr b') :: d2) k = some (.ptr b') := by
      have hu1 : k ∉ d1.map (·.1) := by
        rw [List.map_append, List.map_cons, List.nodup_append] at hu
        exact fun hq => hu.2.2 k hq k (by simp) rfl
      exact dict_get_mid hu1
    have hej : (e.map (·.1)).Nodup := by rw [f1.keys]; exact hp (k, .dict ej) (by simp) ej rfl
    have st := attLoop (B := B) hk (fun h => q5 h.symm) (c1 := []) (c2 := c) (S := Nil) hz f1 ha q2 q4 q3 (by
      rw [List.nil_append, q3]; exact hej) (.nil _) (fun a h => h.elim)
    refine (st.imp (S' := fun a => n ≤ a ∧ a ≠ a') (Q := fun xs _ N' h' => Ext N1 g1 (fun a => a = b') N' h' ∧
        ∃ c ts', h'[b']? = some (.dict c) ∧ All₂ (fun p q => p.1 = q.1 ∧ Pre 1 Att.setDefaults tAtt p.2 q.2) xs ts' ∧
          RepK B N' h' c ts' (Grown Nil g1)) ?_ ?_).bind (S' := fun a => n ≤ a ∧ a ≠ a') (fun _ h _ => h) ?_
    · rintro a rfl _; exact ⟨q7, q5⟩
    · rintro xs _ N' h' _ e2 ⟨c, ts', i1, i2, i3⟩; exact ⟨e2, c, ts', i1, i2, i3⟩
    rintro xs _ N2 g2 - - ⟨e2, c2', ts', i1, i2, i3⟩
    have hb2 : ¬ N2 b' := fun h => q4 (e2.old b' hbl h)
    have rep : Rep B N2 g2 (.ptr b') (.node .dict ts') (fun a => a = b' ∨ Btw g1.length g2.length a) := by
      refine .node b' .dict c2' ts' _ (Btw g1.length g2.length) i1 (.inl rfl) hb2 (i3.bound.mono ?_) ?_
      · rintro a ⟨h3 | h3, h4⟩
        · exact h3.elim
        · exact ⟨h3, h4⟩
      · intro a h3; exact ⟨.inr h3, by have := h3.1; omega⟩
    have hr2 := (hr.frame hz e2 (by rintro a rfl h3 _; exact q6 h3)).snoc (k := k) rep (by
      rintro a h3 (rfl | h4)
      · exact q6 h3
      · have := (hS a h3).1; have := h4.1; omega)
    have hmid : d1 ++ (k, .ptr b') :: d2 = (d1 ++ [(k, .ptr b')]) ++ d2 := by simp
    have ha2 : g2[a']? = some (.dict ((d1 ++ [(k, .ptr b')]) ++ d2)) := by
      rw [e2.keep a' hl (.inr (fun h => q5 h.symm)), ha, hmid]
    have hA' := List.pairwise_cons.mp hA
    have cells : All₂ (CellOk n a' N2 g2 (fun a => S a ∨ (a = b' ∨ Btw g1.length g2.length a))) dd d2 := by
      have hin : ∀ p ∈ dd, In N1 p.2 := FOk.mem_in h2
      refine c2.imp ?_
      rintro ⟨p1, p2⟩ ⟨s1, s2⟩ m1 m2 ⟨w0, w⟩
      refine ⟨w0, fun b2 e' hb2' ho => ?_⟩
      have hNb : N1 b2 := in_ptr.mp (hb2' ▸ hin _ m1)
      rw [e2.keepN hz b2 hNb] at ho
      obtain ⟨b3, c3, w1, w2, w3, w4, w5, w6, w7⟩ := w b2 e' hb2' ho
      have hl3 := (List.getElem?_eq_some_iff.mp w2).1
      have hne : b3 ≠ b' := by
        rintro rfl
        exact hA'.1 _ m2 b3 rfl w1
      refine ⟨b3, c3, w1, ?_, w3, fun h => w4 (e2.old b3 hl3 h), w5, ?_, w7⟩
      · rw [e2.keep b3 hl3 (.inr hne)]; exact w2
      · rintro (h3 | h3 | h3)
        · exact w6 h3
        · exact hne h3
        · have := h3.1; omega
    have ih := slotLoop (n := n) (a' := a') (N := N2) (h := g2) (d1 := d1 ++ [(k, .ptr b')]) (d2 := d2) e2.zone (FOk.ext hz e2 h2)
      (fun p hp' => hp p (by simp [hp'])) ha2 (by rw [← hmid]; exact hu) cells hA'.2 hr2 (by
        rintro a (h3 | rfl | h3)
        · exact ⟨Nat.lt_of_lt_of_le (hS a h3).1 e2.len, (hS a h3).2⟩
        · exact ⟨Nat.lt_of_lt_of_le hbl e2.len, q5, q7⟩
        · exact ⟨h3.2, by have := h3.1; omega, Nat.le_trans hn h3.1⟩) (Nat.le_trans hn e2.len) (Nat.lt_of_lt_of_le hl e2.len)
    rw [mapD_eq] at ih
    show StepS _ _ _ (each (slotBody a') dd) (_ >>= _) _
    rw [← bind_pureM (each (slotBody a') dd)]
    refine ih.bind (S' := fun a => n ≤ a ∧ a ≠ a') (fun _ h _ => h) ?_
    rintro ys _ N3 g3 - e3 ⟨ts2, j1, j2⟩
    refine .ok (y := ()) rfl (.refl e3.zone _) ⟨(k, .node .dict ts') :: ts2, .cons ⟨rfl, ts', rfl, i2⟩ j1, ?_⟩
    rw [← hmid] at j2
    simpa using j2

/-! ### The attachments of a skin -/

theorem FOk.mem_val {N : Nat → Prop} {h : Heap F} {d : Dict (Ref F)} {e : Dict (JVal F)} (hr : FOk B N h d e) :
    ∀ p ∈ d, ∃ q ∈ e, JOk B N h p.2 q.2 := by
  intro p hp
  induction hr with
  | nil => cases hp
  | @cons _ q _ _ y _ ih =>
    rcases List.mem_cons.mp hp with rfl | hp
    · exact ⟨q, by simp, y.2⟩
    · obtain ⟨q, h1, h2⟩ := ih hp
      exact ⟨q, by simp [h1], h2⟩

/-- no attribute of the dictionary is an object twice -/
def ApartAt (h : Heap F) (r : Ref F) : Prop := ∀ a d, r = .ptr a → h[a]? = some (.dict d) → Apart d

theorem parse_step {E : Env F} (hE : B ≤ E.lim) {N : Nat → Prop} {h : Heap F} {r : Ref F} {j : JVal F} (hz : Zone N h) (hr : JOk B N h r j)
    (hj : ∀ dj, j = .dict dj → (dj.map (·.1)).Nodup ∧ ∀ p ∈ dj, ∀ e, p.2 = .dict e → (e.map (·.1)).Nodup) (ha : ApartAt h r) :
    Step N h (parseAttachments E r) (Skin.parseAttachments j) (fun xs y N' h' => ∃ t, TD (TD (Pre 1 Att.setDefaults tAtt)) xs t ∧
      Rep B N' h' y t (Btw h.length h'.length)) := by
  by_cases hd : ∃ dj, j = .dict dj
  · obtain ⟨dj, rfl⟩ := hd
    obtain ⟨a, d, rfl, hNa, hoa, hf⟩ := JOk.dict hz hr
    obtain ⟨r', h1, φ, run, iso, im⟩ := deepcopy_iso (E := E) ((readJ_depth hr.2).le hE)
    obtain ⟨a', o, o', rfl, i1, i2, i3⟩ := iso.obj a r' im
    rw [hoa] at i1
    cases i1
    cases i2 with
    | dict _ d' hl =>
    obtain ⟨_, n1, n2, n3⟩ := iso.new a _ im
    cases n1
    have e1 : Ext N h Nil N h1 := ⟨iso.len, fun _ h => h, fun _ h => .inl h, hz.same (fun b hb => iso.old b (hz.bound b hb)),
      fun b hb _ => iso.old b hb⟩
    have hoa1 : h1[a]? = some (.dict d) := by rw [iso.old a (hz.bound a hNa)]; exact hoa
    have hf1 := hf.ext hz e1
    have hkeys : d.map (·.1) = d'.map (·.1) := by
      clear i3 hf hf1 ha hoa hoa1
      induction hl with
      | nil => rfl
      | cons x _ ih => simp [x.1, ih]
    have hcell : All₂ (CellOk h.length a' N h1 Nil) d d' := by
      refine hl.imp ?_
      rintro ⟨k, p⟩ ⟨k', q⟩ m1 - ⟨rfl, im2⟩
      refine ⟨rfl, ?_⟩
      rintro b e rfl ho
      have hNb : N b := in_ptr.mp (hf.mem_in _ m1)
      rw [iso.old b (hz.bound b hNb)] at ho
      obtain ⟨b', o, o', rfl, w1, w2, w3⟩ := iso.obj b q im2
      rw [ho] at w1
      cases w1
      cases w2 with
      | dict _ c hc =>
      obtain ⟨_, m2, m3, m4⟩ := iso.new b _ im2
      cases m2
      refine ⟨b', c, rfl, w3, ?_, fun hN => ?_, ?_, id, m3⟩
      · clear w3 ho
        induction hc with
        | nil => rfl
        | cons x _ ih => simp [x.1, ih]
      · have := hz.bound b' hN; omega
      · rintro rfl
        have hab : b = a := iso.inj b a _ im2 im
        subst hab
        obtain ⟨y, hy, y1, y2⟩ := hf.mem_val _ m1
        have y3 := y2.symm.trans hr.2
        have y4 := List.sizeOf_lt_of_mem hy
        obtain ⟨ky, y⟩ := y
        simp only [Option.some.injEq] at y3
        subst y3
        simp at y4
        omega
    have hapart : Apart d' := by
      have h0 := ha a d rfl hoa
      clear i3 hf hf1 ha hoa hoa1 hcell hkeys
      unfold Apart at h0 ⊢
      induction hl with
      | nil => exact .nil
      | @cons x y l m x1 x2 ih =>
        rw [List.pairwise_cons] at h0 ⊢
        refine ⟨fun q hq b hb hb' => ?_, ih h0.2⟩
        clear ih
        have h01 := h0.1
        clear h0
        induction x2 with
        | nil => cases hq
        | @cons u v _ _ u1 _ ih2 =>
          rcases List.mem_cons.mp hq with rfl | hq
          · have g1 := x1.2
            have g2 := u1.2
            rw [hb] at g1
            rw [hb'] at g2
            cases hx : x.2 with
            | ptr c =>
              cases hu : u.2 with
              | ptr c' =>
                rw [hx] at g1
                rw [hu] at g2
                have := iso.inj c c' _ g1 g2
                subst this
                exact h01 u (by simp) c hx hu
              | _ => rw [hu] at g2; simp [img] at g2
            | _ => rw [hx] at g1; simp [img] at g1
          · exact ih2 hq (fun q hq => h01 q (by simp [hq]))
    have loop := slotLoop (B := B) (n := h.length) (a' := a') (d1 := []) (d2 := d') (S := Nil) e1.zone hf1 (hj dj rfl).2 i3
      (by rw [List.nil_append, ← hkeys, hf.keys]; exact (hj dj rfl).1) hcell hapart (.nil _) (fun _ h => h.elim) iso.len n3
    have hrun : parseAttachments E (.ptr a) h = (each (slotBody a') d >>= fun _ => pure (Ref.ptr a')) h1 := by
      unfold parseAttachments
      rw [run_bind run]
      have el : level (.ptr a) h1 = (.ok d, h1) := by
        unfold level
        simp only [run_bind (run_deref hoa1)]
        rfl
      rw [run_bind el]
      have : (fun (p : Str × Ref F) => (do
        let e ← level p.2
        each (fun q => do
          let x ← itemsOf q.2
          let k ← lift (kindOf x)
          let o ← newLeaf (.att k) q.2
          let s ← subscript (.ptr a') p.1
          setItem s q.1 o) e)) = slotBody (F := F) a' := by
        funext p
        unfold slotBody
        congr 1
        funext e
        congr 1
        funext q
        unfold attBody newAtt
        rw [bind_assocM]
        congr 1
        funext x
        rw [bind_assocM]
      rw [this]
    have hne : ¬ N a' := fun hN => by have := hz.bound a' hN; omega
    have e0 : Skin.parseAttachments (.dict dj) = mapD (fun w => do
        let e ← Skin.level w
        mapD Att.init e) dj := rfl
    rw [e0]
    have main : StepS (fun a => h.length ≤ a) N h1 (each (slotBody a') d >>= fun _ => pure (Ref.ptr a')) (mapD (fun w => do
        let e ← Skin.level w
        mapD Att.init e) dj) (fun xs y N' h' => ∃ t, TD (TD (Pre 1 Att.setDefaults tAtt)) xs t ∧ Rep B N' h' y t (Btw h.length h'.length)) := by
      have := (loop.imp (S' := fun a => h.length ≤ a) (Q := fun xs _ N' h' => Ext N h1 (fun a => h.length ≤ a ∧ a ≠ a') N' h' ∧ ∃ ts',
        All₂ (fun p q => p.1 = q.1 ∧ TD (Pre 1 Att.setDefaults tAtt) p.2 q.2) xs ts' ∧
          RepK B N' h' d' ts' (fun a => h.length ≤ a ∧ a ≠ a' ∧ a < h'.length)) (fun _ h _ => h.1) (fun xs _ N' h' _ e h => ⟨e, h⟩)).bind
        (S' := fun a => h.length ≤ a) (k := fun _ => pure (Ref.ptr a')) (kv := fun x => .ok x) (Q := fun xs y N' h' => ∃ t,
          TD (TD (Pre 1 Att.setDefaults tAtt)) xs t ∧ Rep B N' h' y t (Btw h.length h'.length)) (fun _ h _ => h) ?_
      · generalize mapD (fun w => do
          let e ← Skin.level w
          mapD Att.init e) dj = v at this ⊢
        cases v <;> exact this
      · rintro xs _ N2 g2 - - ⟨e2, ts, t1, t2⟩
        refine .ok (y := .ptr a') rfl (.refl e2.zone _) ⟨_, ⟨ts, rfl, t1⟩, ?_⟩
        have ha2 : g2[a']? = some (.dict d') := by rw [e2.keep a' n3 (.inr (fun h => h.2 rfl))]; exact i3
        exact .node a' .dict d' ts _ _ ha2 ⟨n2, (List.getElem?_eq_some_iff.mp ha2).1⟩ (fun hN => hne (e2.old a' n3 hN)) t2
          (fun b hb => ⟨⟨hb.1, hb.2.2⟩, hb.2.1⟩)
    generalize mapD (fun w => do
      let e ← Skin.level w
      mapD Att.init e) dj = v at main ⊢
    cases v with
    | ok x =>
      obtain ⟨y, N2, h2, g1, g2, g3⟩ := main
      exact .ok (by rw [hrun]; exact g1) (e1.trans (S := Nil) (g2.mono (S' := fun a => h.length ≤ a) (fun _ h _ => h))
        (fun a h3 h4 => absurd h3 (by omega))) g3
    | error e =>
      by_cases he : e = .unmodelled
      · subst he; exact .skip
      · obtain ⟨N2, h2, g1, g2⟩ := main.of_error he
        exact .error (by rw [hrun]; exact g1) (e1.trans (S := Nil) g2 (fun a h3 h4 => absurd h3 (by omega)))
  · have : Skin.parseAttachments j = .error .unmodelled := by
      cases j with
      | dict d => exact absurd ⟨d, rfl⟩ hd
      | _ => rfl
    rw [this]
    exact .skip

/-! ### Skins -/

/-- no slot of the skin shares its dictionary with another slot -/
def SkinApart (h : Heap F) (r : Ref F) : Prop :=
  ∀ b d w, r = .ptr b → h[b]? = some (.dict d) → Dict.get? d s!!"attachments" = some w → ApartAt h w

/-- a skin of the document -/
def SkinOk (q : F → Prop) (B : Nat) (N : Nat → Prop) (h : Heap F) (r : Ref F) (j : JVal F) : Prop := JOk B N h r j ∧ Fine q j ∧ SkinApart h r

theorem ApartAt.ext {N N' : Nat → Prop} {h h' : Heap F} {S : Nat → Prop} {r : Ref F} (hz : Zone N h) (e : Ext N h S N' h') (hr : In N r)
    (ha : ApartAt h r) : ApartAt h' r := by
  intro a d hr' ho
  rw [e.keepN hz a (hr a hr')] at ho
  exact ha a d hr' ho

theorem SkinOk.ext {q : F → Prop} {N N' : Nat → Prop} {h h' : Heap F} {S : Nat → Prop} {r : Ref F} {j : JVal F} (hz : Zone N h)
    (e : Ext N h S N' h') (hs : SkinOk q B N h r j) : SkinOk q B N' h' r j := by
  refine ⟨hs.1.ext hz e, hs.2.1, ?_⟩
  intro b d w hr ho hw
  have hb := hs.1.1 b hr
  rw [e.keepN hz b hb] at ho
  exact ApartAt.ext hz e (hz.closed b _ hb ho w (List.mem_map_of_mem (Dict.mem_of_get? hw))) (hs.2.2 b d w hr ho hw)

theorem fine_keys {q : F → Prop} {j : JVal F} (h : Fine q j) :
    ∀ dj, j = .dict dj → (dj.map (·.1)).Nodup ∧ ∀ p ∈ dj, ∀ e, p.2 = .dict e → (e.map (·.1)).Nodup := by
  rintro dj rfl
  have h1 := fine_dict.mp h
  refine ⟨h1.1, fun p hp e he => ?_⟩
  have h2 := h1.2 p hp
  rw [he] at h2
  exact (fine_dict.mp h2).1

theorem run_setAttr {h : Heap F} {a : Nat} {t : Tag} {d : Dict (Ref F)} {k : Str} {v : Ref F} (ho : h[a]? = some (.inst t d)) :
    setAttr (.ptr a) k v h = (.ok (), h.set a (.inst t (Dict.set d k v))) := by
  unfold setAttr
  simp only [run_bind (run_deref ho)]
  rfl

/-- the dictionary of values is that of the argument, or empty -/
theorem orDict_at {N : Nat → Prop} {h : Heap F} {r : Ref F} {j : JVal F} (hz : Zone N h) (hr : JOk B N h r j) :
    Step N h (orDict r) (Spine.orDict j) (fun x y N' h' => FOk B N' h' y x ∧ N' = N ∧ h' = h ∧ (y = [] ∨ ∃ b, r = .ptr b ∧ h[b]? = some (.dict y))) := by
  have hr0 := hr
  have ht := truthy_run hr
  unfold Spine.orDict
  by_cases hb : JVal.truthy j = true
  · rw [hb] at ht
    rw [if_pos hb]
    have e0 : ∀ o, deref r h = (.ok o, h) → orDict r h = (match o with
        | some (.dict d) => (.ok d, h)
        | _ => (.error .attribute, h)) := by
      intro o ho
      unfold orDict
      rw [run_bind ht, if_pos rfl, run_bind ho]
      rcases o with _ | o
      · rfl
      · cases o <;> rfl
    cases readJ_iff.mp hr.2 with
    | null => exact .error (e0 none rfl) (.refl hz _)
    | bool b => exact .error (e0 none rfl) (.refl hz _)
    | int b => exact .error (e0 none rfl) (.refl hz _)
    | flt b => exact .error (e0 none rfl) (.refl hz _)
    | str s => exact .error (e0 none rfl) (.refl hz _)
    | list a l js ho h2 => exact .error (e0 _ (run_deref ho)) (.refl hz _)
    | dict a l js ho h2 =>
      obtain ⟨a', d, e1, h3, h4, h5⟩ := JOk.dict hz hr0
      cases e1
      exact .ok (y := d) (e0 _ (run_deref h4)) (.refl hz _) ⟨h5, rfl, rfl, .inr ⟨_, rfl, h4⟩⟩
  · have hb' : JVal.truthy j = false := by simpa using hb
    rw [hb'] at ht
    rw [if_neg hb]
    refine .ok (y := []) ?_ (.refl hz _) ⟨.nil, rfl, rfl, .inl rfl⟩
    unfold orDict
    rw [run_bind ht]
    rfl

/-- the end of `Skin.init` -/
def skinRest (n : Option Str) (w : JVal F) : Except Err (Skin F) :=
  match w with
  | .null => .ok { name := n.getD [], attachments := [] }
  | w => Skin.parseAttachments w >>= fun at' => .ok { name := n.getD [], attachments := at' }

theorem skinInit_eq (v : JVal F) : Skin.init v = (do
    let d ← Spine.orDict v
    Cls.check [s!!"name", s!!"attachments"] [] d
    let n ← optStr ((Dict.get? d s!!"name").getD .null)
    skinRest n ((Dict.get? d s!!"attachments").getD .null)) := rfl

/-- `Skin38(values)` -/
theorem newSkin_step {E : Env F} (hE : B ≤ E.lim) {q : F → Prop} {N : Nat → Prop} {h : Heap F} {r : Ref F} {j : JVal F} (hz : Zone N h)
    (hs : SkinOk q B N h r j) : Step N h (newSkin E r) (Skin.init j) (Made B (Pre 4 Skin.setDefaults tSkin) h) := by
  rw [skinInit_eq]
  unfold newSkin
  refine (orDict_at hz hs.1).bind ?_
  rintro dj d N1 h1 hv - ⟨g1, rfl, rfl, hd⟩
  have hfd := fine_orDict hs.2.1 hv
  have hw := g1.getD s!!"attachments" (JOk.null (N := N1) (h := h1))
  have hnm := g1.getD s!!"name" (JOk.null (N := N1) (h := h1))
  have hap : ApartAt h1 ((Dict.get? d s!!"attachments").getD .null) := by
    cases hg : Dict.get? d s!!"attachments" with
    | none => exact fun a d h => nomatch h
    | some w =>
      rcases hd with rfl | ⟨b, rfl, ho⟩
      · cases hg
      · exact hs.2.2 b d w rfl ho hg
  have hfw : Fine q ((Dict.get? dj s!!"attachments").getD .null) := fine_getD hfd _ fine_null
  simp only
  generalize (Dict.get? d s!!"attachments").getD .null = w at hw hap ⊢
  generalize (Dict.get? dj s!!"attachments").getD .null = wj at hw hfw ⊢
  generalize (Dict.get? d s!!"name").getD .null = nm at hnm ⊢
  generalize (Dict.get? dj s!!"name").getD .null = nj at hnm ⊢
  refine StepS.toStep (S := fun a => h1.length ≤ a) ?_ (fun _ h => h)
  have ea : Ext N1 h1 (fun a => h1.length ≤ a) N1 (h1 ++ [.inst .skin [(s!!"name", nm), (s!!"attachments", w)]]) := Ext.alloc hz _ _
  have e0 : ∀ v : Except Err (Skin F), v = ((.ok () : Except Err Unit) >>= fun _ => v) := fun _ => rfl
  rw [e0 (Cls.check _ _ _ >>= _)]
  refine StepS.bind (S' := fun a => h1.length ≤ a) (P := fun _ y N' h' => y = .ptr h1.length ∧ N' = N1 ∧
    h' = h1 ++ [.inst .skin [(s!!"name", nm), (s!!"attachments", w)]]) (.ok run_alloc ea ⟨rfl, rfl, rfl⟩) (fun _ h _ => h) ?_
  rintro - y N2 h2 - - ⟨rfl, rfl, rfl⟩
  refine (check_step _ _ ea.zone (g1.ext hz ea)).bindS (S' := fun a => h1.length ≤ a) (fun _ h _ => h) ?_
  rintro - - N3 h3 - e3 -
  have ho3 : h3[h1.length]? = some (.inst .skin [(s!!"name", nm), (s!!"attachments", w)]) := by
    rw [e3.keep h1.length (by simp) (.inr id)]; simp
  have hl3 : h1.length < h3.length := (List.getElem?_eq_some_iff.mp ho3).1
  have hn3 : ¬ N3 h1.length := fun hn => by
    have := hz.bound _ (e3.old h1.length (by simp) hn); omega
  have hw3 := (hw.ext hz ea).ext ea.zone e3
  have hnm3 := (hnm.ext hz ea).ext ea.zone e3
  have hap3 := ApartAt.ext ea.zone e3 (hw.1.mono ea.sub) (ApartAt.ext hz ea hw.1 hap)
  rcases optStr_eq (v := nj) with e1 | ⟨n, e1, e2⟩
  · rw [e1]; exact .skip
  rw [e1]
  show StepS _ _ _ _ (skinRest n wj) _
  have hnn : nj = .str (n.getD []) ∨ nj = .null ∧ n.getD [] = [] := by
    cases n with
    | none => exact .inr ⟨e2, rfl⟩
    | some s => exact .inl e2
  by_cases hnull : wj = .null
  · subst hnull
    cases readJ_iff.mp hw.2
    refine .ok (y := .ptr h1.length) rfl (.refl e3.zone _) ⟨_, pre_skin nj hnn (.inr ⟨rfl, rfl⟩), ?_⟩
    refine .node h1.length (.inst .skin) _ _ _ Nil ho3 ⟨Nat.le_refl _, hl3⟩ hn3 ?_ (fun _ h => h.elim)
    refine .cons _ _ _ _ _ Nil Nil _ (.leaf _ _ _ hnm3.1 hnm3.2) (.cons _ _ _ _ _ Nil Nil _ (.leaf _ _ _ hw3.1 hw3.2) (.nil _) ?_ ?_ ?_) ?_ ?_ ?_ <;>
      intro a h <;> first | exact h.elim | (intro h; exact h.elim)
  · have hm : skinRest n wj = (Skin.parseAttachments wj >>= fun at' => .ok { name := n.getD [], attachments := at' }) := by
      cases wj <;> first | exact absurd rfl hnull | rfl
    rw [hm]
    have hwn : w.isNull = false := by
      cases readJ_iff.mp hw.2 <;> first | exact absurd rfl hnull | rfl
    simp only [hwn, Bool.false_eq_true, if_false]
    refine (parse_step hE e3.zone hw3 (fine_keys hfw) hap3).bindS (S' := fun a => h1.length ≤ a) (fun _ h _ => h) ?_
    rintro xs x N4 h4 - e4 ⟨t, t1, p1⟩
    have ho4 : h4[h1.length]? = some (.inst .skin [(s!!"name", nm), (s!!"attachments", w)]) := by
      rw [e4.keep h1.length hl3 (.inr id)]; exact ho3
    have hn4 : ¬ N4 h1.length := fun hn => hn3 (e4.old _ hl3 hn)
    have hset : Dict.set [(s!!"name", nm), (s!!"attachments", w)] s!!"attachments" x = [(s!!"name", nm), (s!!"attachments", x)] := rfl
    have e5 : Ext N4 h4 (fun a => a = h1.length) N4 (h4.set h1.length (.inst .skin [(s!!"name", nm), (s!!"attachments", x)])) :=
      Ext.set e4.zone _ rfl hn4
    have hnm4 := (hnm3.ext e3.zone e4).ext e4.zone e5
    refine .ok (y := .ptr h1.length) ?_ (e5.mono (by rintro a rfl _; exact Nat.le_refl _)) ⟨_, pre_skin (t := t) nj hnn (.inl (Pre.dict ?_)), ?_⟩
    · rw [run_bind (run_setAttr ho4), hset]
      rfl
    · exact t1.imp (fun _ _ h => Pre.dict h)
    · have hl4 : h1.length < h4.length := Nat.lt_of_lt_of_le hl3 e4.len
      refine .node h1.length (.inst .skin) _ _ _ (Btw h3.length h4.length) (List.getElem?_set_self hl4) ⟨Nat.le_refl _, by simpa using hl4⟩ hn4 ?_
        (fun b hb => ⟨⟨by have := hb.1; omega, by rw [List.length_set]; exact hb.2⟩, by have := hb.1; omega⟩)
      have p2 := p1.frame e4.zone e5 (by rintro a rfl h _; have := h.1; omega)
      refine .cons _ _ _ _ _ Nil (Btw h3.length h4.length) _ (.leaf _ _ _ hnm4.1 hnm4.2)
        (.cons _ _ _ _ _ (Btw h3.length h4.length) Nil _ p2 (.nil _) ?_ ?_ ?_) ?_ ?_ ?_
      · exact fun a _ h => h
      · exact fun a h => h
      · exact fun a h => h.elim
      · exact fun a h => h.elim
      · exact fun a h => h.elim
      · exact fun a h => h

end Alias
end Spine
