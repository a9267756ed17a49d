import Verif.Lemmas.SimScale
/-
The documents written by the heap model: `to_json_data`, copies of JSON values and the entries held by the graph.
-/
set_option linter.unusedSectionVars false
namespace Spine
namespace Alias
open M
variable {F : Type} [PyRt F] {B : Nat} {N : Nat → Prop} {h : Heap F}

/-! ### The depth of a value does not depend on where it lies -/

theorem readJ_to {h h' : Heap F} : ∀ {m n : Nat} {r r' : Ref F} {j : JVal F}, readJ h m r = some j → readJ h' n r' = some j →
    readJ h' m r' = some j := by
  have main : ∀ m, (∀ n (r r' : Ref F) (j : JVal F), belowJ h m r = some j → belowJ h' n r' = some j → belowJ h' m r' = some j) →
      ∀ n (r r' : Ref F) (j : JVal F), readJ h m r = some j → readJ h' n r' = some j → readJ h' m r' = some j := by
    intro m hb n r r' j h1 h2
    cases readJ_iff.mp h2 with
    | null => exact readJ_iff.mpr .null
    | bool b => exact readJ_iff.mpr (.bool b)
    | int b => exact readJ_iff.mpr (.int b)
    | flt b => exact readJ_iff.mpr (.flt b)
    | str b => exact readJ_iff.mpr (.str b)
    | list a' l' js ho' hl' =>
      cases readJ_iff.mp h1 with
      | list a l _ ho hl =>
        refine (readJ_list ho').mpr ?_
        clear h1 h2 ho ho'
        induction hl' generalizing l with
        | nil => exact .nil
        | cons x1 _ ih =>
          cases hl with
          | cons y1 y2 => exact .cons (hb _ _ _ _ y1 x1) (ih _ y2)
    | dict a' l' js ho' hl' =>
      cases readJ_iff.mp h1 with
      | dict a l _ ho hl =>
        refine (readJ_dict ho').mpr ?_
        clear h1 h2 ho ho'
        induction hl' generalizing l with
        | nil => exact .nil
        | cons x1 _ ih =>
          cases hl with
          | cons y1 y2 => exact .cons ⟨x1.1, hb _ _ _ _ y1.2 x1.2⟩ (ih _ y2)
  intro m
  induction m with
  | zero => exact fun {n r r' j} => main 0 (fun _ _ _ _ h1 => nomatch h1) n r r' j
  | succ m ih =>
    refine fun {n r r' j} => main (m + 1) (fun n r r' j h1 h2 => ?_) n r r' j
    cases n with
    | zero => cases h2
    | succ n => exact ih h1 h2

/-- a dictionary whose values are readable at some depth is readable one level deeper -/
theorem readJ_entry {n : Nat} {r : Ref F} {d : Dict (JVal F)} (hr : readJ h n r = some (.dict d))
    (hd : ∀ p ∈ d, ∃ (h0 : Heap F) (r0 : Ref F), readJ h0 B r0 = some p.2) : readJ h (B + 1) r = some (.dict d) := by
  cases readJ_iff.mp hr with
  | dict a l _ ho hl =>
    refine (readJ_dict ho).mpr ?_
    refine hl.imp (fun x y _ hy e => ⟨e.1, ?_⟩)
    obtain ⟨h0, r0, h1⟩ := hd y hy
    cases n with
    | zero => cases e.2
    | succ n => exact readJ_to h1 e.2

/-! ### Freezing an object -/

theorem Zone.add (hz : Zone N h) {c : Nat} {o : Obj F} (ho : h[c]? = some o) (hr : ∀ s ∈ o.refs, In N s) : Zone (fun a => N a ∨ a = c) h := by
  refine ⟨?_, ?_⟩
  · rintro a (h1 | rfl)
    · exact hz.bound a h1
    · exact (List.getElem?_eq_some_iff.mp ho).1
  · rintro a x (h1 | rfl) hx s hs
    · exact (hz.closed a x h1 hx s hs).mono (fun _ => .inl)
    · rw [ho] at hx
      cases hx
      exact (hr s hs).mono (fun _ => .inl)

theorem FOk.set {d : Dict (Ref F)} {e : Dict (JVal F)} (hr : FOk B N h d e) (k : Str) {r : Ref F} {j : JVal F} (hj : JOk B N h r j) :
    FOk B N h (Dict.set d k r) (Dict.set e k j) := by
  induction hr with
  | nil => exact .cons ⟨rfl, hj⟩ .nil
  | @cons p q _ _ h1 h2 ih =>
    obtain ⟨k', r'⟩ := p
    obtain ⟨k'', j'⟩ := q
    obtain ⟨e1, h3⟩ := h1
    simp only at e1 h3
    subst e1
    unfold Dict.set
    by_cases hk : k' = k
    · simp only [hk, if_true]; exact .cons ⟨rfl, hj⟩ h2
    · simp only [hk, if_false]; exact .cons ⟨rfl, h3⟩ ih

theorem FOk.inside {d : Dict (Ref F)} {e : Dict (JVal F)} (hr : FOk B N h d e) : ∀ p ∈ d, In N p.2 := by
  induction hr with
  | nil => exact fun _ hp => nomatch hp
  | cons h1 _ ih =>
    intro p hp
    cases hp with
    | head => exact h1.2.1
    | tail _ hp => exact ih p hp

theorem JOk.mk_dict {a : Nat} {d : Dict (Ref F)} {e : Dict (JVal F)} (hN : N a) (ho : h[a]? = some (.dict d)) (hd : FOk B N h d e) :
    JOk (B + 1) N h (.ptr a) (.dict e) :=
  ⟨in_ptr.mpr hN, (readJ_dict ho).mpr (hd.imp (fun _ _ _ _ hp => ⟨hp.1, hp.2.2⟩))⟩

theorem JOk.le {A : Nat} (hA : B ≤ A) {r : Ref F} {j : JVal F} (hr : JOk B N h r j) : JOk A N h r j := ⟨hr.1, readJ_le hr.2 hA⟩

/-! ### Copies -/

theorem copyJ {E : Env F} {A : Nat} (hA : A ≤ E.lim) (hz : Zone N h) {r : Ref F} {j : JVal F} (hr : JOk A N h r j) :
    ∃ r' N' h', deepcopy E r h = (.ok r', h') ∧ Ext N h Nil N' h' ∧ JOk A N' h' r' j := by
  obtain ⟨r', h1, φ, run, iso, im⟩ := deepcopy_iso (E := E) ((readJ_depth hr.2).le hA)
  exact ⟨r', _, h1, run, iso.ext hz Nil, iso.in im hr.1, by rw [iso_readJ iso A im]; exact hr.2⟩

theorem copyL_J {E : Env F} {A : Nat} (hA : A ≤ E.lim) : ∀ {l : List (Ref F)} {js : List (JVal F)} {N : Nat → Prop} {h : Heap F}, Zone N h →
    All₂ (JOk A N h) l js → ∃ l' N' h', mapL (deepcopy E) l h = (.ok l', h') ∧ Ext N h Nil N' h' ∧ All₂ (JOk A N' h') l' js
  | [], _, N, h, hz, .nil => ⟨[], N, h, rfl, .refl hz _, .nil⟩
  | r :: l, _, N, h, hz, .cons (y := j) (m := js) h1 h2 => by
    obtain ⟨r', N1, h1', run, e1, j1⟩ := copyJ hA hz h1
    obtain ⟨l', N2, h2', run2, e2, j2⟩ := copyL_J hA e1.zone (h2.imp (fun _ _ _ _ hp => hp.ext hz e1))
    refine ⟨r' :: l', N2, h2', ?_, e1.trans e2 (fun _ h _ => h), .cons (j1.ext e1.zone e2) j2⟩
    unfold mapL
    rw [run_bind run, run_bind run2]
    rfl

/-! ### to_json_data -/

theorem Fresh.ext (hz : Zone N h) {h' : Heap F} (s : Fresh h h') : Ext N h Nil (fun a => N a ∨ Btw h.length h'.length a) h' := by
  refine ⟨s.len, fun _ => .inl, ?_, ⟨?_, ?_⟩, fun a ha _ => s.old a ha⟩
  · rintro a (h1 | h1)
    · exact .inl h1
    · exact .inr h1.1
  · rintro a (h1 | h1)
    · exact Nat.lt_of_lt_of_le (hz.bound a h1) s.len
    · exact h1.2
  · rintro a o (h1 | h1) ho r hr
    · rw [s.old a (hz.bound a h1)] at ho
      exact (hz.closed a o h1 ho r hr).mono (fun _ => .inl)
    · exact (s.zone.closed a o h1 ho r hr).mono (fun _ => .inr)

theorem toJsonData_run {E : Env F} (hm : 8 + B ≤ E.lim) (hz : Zone N h) {data sk : Ref F} {a : AnimData F} {S : Nat → Prop} {s : Dict (JVal F)}
    (hh : (tData a).height ≤ 8) (hr : Rep B N h data (tData a) S) (hk : JOk B N h sk (.dict s)) (v : Version) :
    ∃ r' N' h', toJsonData E sk v data h = (.ok r', h') ∧ Ext N h Nil N' h' ∧
      JOk (8 + B) N' h' r' (SpineDoc.toJson { skeleton := s, version := v, data := a }) := by
  have hrd : read h (8 + B) data = some (tData a).sval := read_mono (fun _ _ => rfl) hr.read (by omega)
  rw [tData_sval] at hrd
  have hj := AnimData.sval_toJson v.is38 a
  have hlim : ∃ n, E.lim = n + 1 := ⟨E.lim - 1, by omega⟩
  obtain ⟨n, hn⟩ := hlim
  obtain ⟨c, rs, S', rfl, h1, _, _, _, _⟩ := Rep.inst (t := .document) (ts := _) hr
  rw [read_eq] at hrd
  simp only [readStep, h1] at hrd
  obtain ⟨x, hx, e⟩ := Option.map_eq_some_iff.mp hrd
  rw [← e] at hj
  simp only [SVal.toJson] at hj
  cases e2 : SVal.toJsonA v.is38 (Tag.cls .document) x with
  | error e' => simp [e2] at hj
  | ok js =>
    simp only [e2, Except.ok.injEq, JVal.dict.injEq] at hj
    subst hj
    have hw : Writes v.is38 h (below h (8 + B)) (fun h => belowJ h (8 + B)) (toJsonN E v.is38 n) := by
      have : 8 + B = (7 + B) + 1 := by omega
      rw [this]
      exact writes n (7 + B) (by omega) (by omega)
    obtain ⟨l', h', g1, g2, g3, g4⟩ := writesA (E := E) (t := .document) (by omega) hw rs x _ h (Nat.le_refl _) (fun _ _ => rfl) (mapOD_iff.mp hx) e2
    have e1 := g2.ext hz
    have hf : FOk (7 + B) (fun a => N a ∨ Btw h.length h'.length a) h' l' (a.toJson v.is38) := by
      refine g4.imp (fun p q hp _ hpq => ⟨hpq.1, (g3 p hp).mono (fun _ => .inr), ?_⟩)
      have := hpq.2
      rw [show 8 + B = (7 + B) + 1 by omega] at this
      exact this
    have e3 := Ext.alloc e1.zone (.dict l') Nil
    have hk1 := (hk.ext hz e1).ext e1.zone e3
    obtain ⟨sk', N2, h2, run, e4, j4⟩ := copyJ (E := E) (A := B) (by omega) e3.zone hk1
    have hf4 := (hf.ext e1.zone e3).ext e3.zone e4
    have hc0 : ¬ N2 h'.length := by
      intro hN
      rcases e4.new _ hN with h5 | h5
      · have := e1.zone.bound _ h5; omega
      · simp at h5; omega
    have ho : h2[h'.length]? = some (.dict l') := by
      rw [e4.keep _ (by simp) (.inr (fun h => h))]
      simp
    have e5 := Ext.set (S := fun a => a = h'.length) e4.zone (.dict (Dict.set l' s!!"skeleton" sk')) rfl hc0
    have hf5 := (hf4.ext e4.zone e5).set s!!"skeleton" ((j4.ext e4.zone e5).le (show B ≤ 7 + B by omega))
    have ho5 : (h2.set h'.length (.dict (Dict.set l' s!!"skeleton" sk')))[h'.length]? = some (.dict (Dict.set l' s!!"skeleton" sk')) := by
      rw [List.getElem?_set_self]
      exact (List.getElem?_eq_some_iff.mp ho).1
    have hz5 := e5.zone.add ho5 (by
      intro r hr
      obtain ⟨p, hp, rfl⟩ := List.mem_map.mp hr
      exact hf5.inside p hp)
    have eT := ((e1.trans e3 (fun _ h _ => h)).trans e4 (fun _ h _ => h)).trans (S := Nil) e5 (fun b hb hl => by
      subst hb
      have := g2.len
      omega)
    have e6 : Ext N h Nil (fun a => N2 a ∨ a = h'.length) (h2.set h'.length (.dict (Dict.set l' s!!"skeleton" sk'))) := by
      refine ⟨eT.len, fun b hb => .inl (eT.sub b hb), ?_, hz5, eT.keep⟩
      rintro b (hb | rfl)
      · exact eT.new b hb
      · exact .inr g2.len
    refine ⟨.ptr h'.length, _, _, ?_, e6, ?_⟩
    · unfold toJsonData
      have r1 : toJsonN E v.is38 E.lim (.ptr c) h = (.ok (.ptr h'.length), h' ++ [.dict l']) := by
        rw [hn]
        unfold toJsonN toJsonStep
        rw [run_bind (run_deref h1)]
        simp only
        rw [run_bind g1]
        rfl
      rw [run_bind r1, run_bind run, run_bind (run_setItem ho)]
      rfl
    · have : JOk (7 + B + 1) (fun a => N2 a ∨ a = h'.length) (h2.set h'.length (.dict (Dict.set l' s!!"skeleton" sk'))) (.ptr h'.length)
          (.dict (Dict.set (a.toJson v.is38) s!!"skeleton" (.dict s))) :=
        JOk.mk_dict (.inr rfl) ho5 (hf5.imp (fun _ _ _ _ hp => ⟨hp.1, hp.2.1.mono (fun _ => .inl), hp.2.2⟩))
      exact this.le (by omega)

end Alias
end Spine
