import Verif.Lemmas.CleanSync
import Verif.Props.Scale
/- `get_unused_slots_and_attachments`: what it returns and when it raises. -/
set_option linter.unusedSectionVars false
set_option linter.unusedSimpArgs false
namespace Spine
open JVal Graph
variable {F : Type} [PyRt F]

theorem SlotKf.isEmpty_iff (k : SlotKf F) : k.isEmpty = true ↔ k.Clears := by
  unfold SlotKf.isEmpty SlotKf.Clears
  simp only [Bool.or_eq_true, beq_iff_eq]
  exact or_comm

namespace SlotTl

theorem hasColor_iff (t : SlotTl F) : t.hasColor = true ↔ t.Coloured := by
  unfold hasColor Coloured
  simp [List.isEmpty_iff]

theorem isEmpty_iff (t : SlotTl F) : t.isEmpty = true ↔ t.Blank := by
  unfold isEmpty Blank
  simp only [Bool.and_eq_true]
  refine and_congr (by simp [Coloured, List.isEmpty_iff]) ?_
  cases h : t.attachment with
  | nil => simp
  | cons k l => cases l with
    | nil => simp [SlotKf.isEmpty_iff, timeZero, Bool.and_eq_true]
    | cons _ _ => simp

theorem mem_used (t : SlotTl F) (o : Option Str) : o ∈ t.usedAttachments ↔ ∃ n, o = some n ∧ t.Shows n := by
  unfold usedAttachments Shows
  simp only [List.mem_map, List.mem_filter, Bool.not_eq_true']
  constructor
  · rintro ⟨k, ⟨h1, h2⟩, rfl⟩
    have h2 : ¬ k.Clears := by rw [← SlotKf.isEmpty_iff]; simp [h2]
    cases hn : k.name with
    | none => exact absurd (.inl hn) h2
    | some n => exact ⟨n, rfl, k, h1, hn, fun e => h2 (.inr (by rw [hn, e]))⟩
  · rintro ⟨n, rfl, k, h1, h2, h3⟩
    refine ⟨k, ⟨h1, ?_⟩, h2⟩
    rw [Bool.eq_false_iff, ne_eq, SlotKf.isEmpty_iff]
    rintro (h | h)
    · rw [h2] at h; cases h
    · rw [h2] at h; injection h with h; exact h3 h

end SlotTl

theorem Slot.plain_iff (s : Slot F) : s.Plain ↔ (s.attachment.isNone && s.dark.isNull && s.blend.isNull && s.color.isNone) = true := by
  have hn : ∀ v : JVal F, v.isNull = true ↔ v = .null := by intro v; cases v <;> simp [JVal.isNull]
  simp only [Bool.and_eq_true, Option.isNone_iff_eq_none, hn]
  constructor
  · rintro ⟨h1, h2, h3, h4⟩; exact ⟨⟨⟨h1, h3⟩, h4⟩, h2⟩
  · rintro ⟨⟨⟨h1, h3⟩, h4⟩, h2⟩; exact ⟨h1, h2, h3, h4⟩

namespace AnimData
variable {a : AnimData F}

theorem slotsDict_iff (hnd : (a.slots.map (·.name)).Nodup) (n : Str) (s : Slot F) :
    slotsDict a n = some s ↔ n ≠ [] ∧ s ∈ a.slots ∧ s.name = n := by
  unfold slotsDict
  by_cases h : n = []
  · simp [h]
  · rw [if_neg h]
    constructor
    · intro hf
      have h1 := List.mem_of_find?_eq_some hf
      have h2 := List.find?_some hf
      exact ⟨h, by simpa using h1, by simpa using h2⟩
    · rintro ⟨_, h1, rfl⟩
      cases hf : a.slots.reverse.find? (fun t => t.name == s.name) with
      | none => rw [List.find?_eq_none] at hf; exact absurd (by simp) (hf s (by simpa using h1))
      | some t =>
        have h2 := List.mem_of_find?_eq_some hf
        have h3 := List.find?_some hf
        rw [nodup_map_inj hnd (x := t) (y := s) (by simpa using h2) h1 (by simpa using h3)]

theorem slotsDict_none (n : Str) : slotsDict a n = none ↔ n = [] ∨ ∀ s ∈ a.slots, s.name ≠ n := by
  unfold slotsDict
  by_cases h : n = []
  · simp [h]
  · rw [if_neg h, List.find?_eq_none]
    simp [h]

/-! ### setupUsed -/

theorem setFold_get? (l : List (Slot F)) (hnd : (l.map (·.name)).Nodup) (d : Dict (List (Option Str))) (n : Str) :
    Dict.get? (l.foldl (fun d s => Dict.set d s.name [s.attachment]) d) n =
      match l.find? (fun s => s.name == n) with
      | some s => some [s.attachment]
      | none => Dict.get? d n := by
  induction l generalizing d with
  | nil => rfl
  | cons s l ih =>
    rw [List.map_cons, List.nodup_cons] at hnd
    rw [List.foldl_cons, ih hnd.2, List.find?_cons, Dict.get?_set]
    by_cases h : s.name = n
    · subst h
      have : l.find? (fun t => t.name == s.name) = none := by
        rw [List.find?_eq_none]
        intro t ht he
        exact hnd.1 (List.mem_map.2 ⟨t, ht, by simpa using he⟩)
      simp [this]
    · have hb : (s.name == n) = false := by simpa using h
      have h' : ¬ (n = s.name) := fun e => h e.symm
      simp [hb, h, h']

theorem setFold_nodup (l : List (Slot F)) (d : Dict (List (Option Str))) (hd : (Dict.keys d).Nodup) :
    (Dict.keys (l.foldl (fun d s => Dict.set d s.name [s.attachment]) d)).Nodup := by
  induction l generalizing d with
  | nil => exact hd
  | cons s l ih => exact ih _ (Dict.nodup_keys_set hd _ _)

theorem setupUsed_nodup (a : AnimData F) (vis : List Str) : (Dict.keys (setupUsed a vis)).Nodup :=
  setFold_nodup _ _ (by simp [Dict.keys])

theorem find?_unique {l : List (Slot F)} (hnd : (l.map (·.name)).Nodup) {s : Slot F} (hs : s ∈ l) :
    l.find? (fun t => t.name == s.name) = some s := by
  cases hf : l.find? (fun t => t.name == s.name) with
  | none => rw [List.find?_eq_none] at hf; exact absurd (by simp) (hf s hs)
  | some t =>
    have h2 := List.mem_of_find?_eq_some hf
    have h3 := List.find?_some hf
    rw [nodup_map_inj hnd h2 hs (by simpa using h3)]

theorem setupUsed_get? (hnd : (a.slots.map (·.name)).Nodup) (vis : List Str) (n : Str) (l : List (Option Str)) :
    Dict.get? (setupUsed a vis) n = some l ↔ ∃ s ∈ a.slots, s.name = n ∧ n ∈ vis ∧ l = [s.attachment] := by
  have hnd' : ((a.slots.filter (fun s => decide (s.name ∈ vis))).map (·.name)).Nodup :=
    hnd.sublist (List.filter_sublist.map _)
  unfold setupUsed
  rw [setFold_get? _ hnd']
  constructor
  · split
    · rename_i s hf
      intro h
      have h2 := List.mem_of_find?_eq_some hf
      have h3 : s.name = n := by simpa using List.find?_some hf
      obtain ⟨h4, h5⟩ := List.mem_filter.1 h2
      exact ⟨s, h4, h3, by rw [← h3]; simpa using h5, by simpa using h.symm⟩
    · intro h; simp [Dict.get?] at h
  · rintro ⟨s, hs, rfl, hv, rfl⟩
    rw [find?_unique hnd' (List.mem_filter.2 ⟨hs, by simpa using hv⟩)]

/-! ### the loop over the slot timelines -/

theorem visFold {alpha noset : List Str} (hnd : (a.slots.map (·.name)).Nodup) (slots : Dict (SlotTl F)) :
    ∀ {v0 v : Vis}, (Dict.keys slots).Nodup → foldE (visStep a alpha noset) v0 slots = .ok v → (Dict.keys v0.2).Nodup →
      (Dict.keys v.2).Nodup ∧ (v.2 = [] ↔ v0.2 = [] ∧ slots = []) ∧
      (∀ n, n ∉ Dict.keys slots → (n ∈ v.1 ↔ n ∈ v0.1) ∧ Dict.get? v.2 n = Dict.get? v0.2 n) ∧
      (∀ n t, (n, t) ∈ slots → ∃ s ∈ a.slots, s.name = n ∧ (n ∈ v.1 ↔ discarded alpha noset n s t = false) ∧
        Dict.get? v.2 n = some (if discarded alpha noset n s t then [] else slotUsed s t)) := by
  induction slots with
  | nil =>
    intro v0 v _ h h0
    simp only [foldE] at h; injection h with h; subst h
    exact ⟨h0, by simp, fun n _ => ⟨Iff.rfl, rfl⟩, by simp⟩
  | cons p r ih =>
    obtain ⟨m, tm⟩ := p
    intro v0 v hk h h0
    have hk' : m ∉ Dict.keys r ∧ (Dict.keys r).Nodup := by simpa [Dict.keys] using hk
    rw [foldE] at h
    cases hs : slotsDict a m with
    | none =>
      have : visStep a alpha noset v0 (m, tm) = .error .key := by unfold visStep; rw [hs]
      rw [this] at h; cases h
    | some s =>
      obtain ⟨_, hsm, hsn⟩ := (slotsDict_iff hnd m s).1 hs
      have hst : visStep a alpha noset v0 (m, tm) = .ok (if discarded alpha noset m s tm then (v0.1.filter (· ≠ m), Dict.set v0.2 m [])
          else (m :: v0.1, Dict.set v0.2 m (slotUsed s tm))) := by
        unfold visStep; rw [hs]; simp only; split <;> rfl
      rw [hst] at h
      simp only at h
      -- the state after this round
      obtain ⟨v1, e1, e2⟩ : ∃ v1 : Vis, v1 = (if discarded alpha noset m s tm then (v0.1.filter (· ≠ m), Dict.set v0.2 m [])
          else (m :: v0.1, Dict.set v0.2 m (slotUsed s tm))) ∧ foldE (visStep a alpha noset) v1 r = .ok v := by
        exact ⟨_, rfl, h⟩
      have hmem : m ∈ v1.1 ↔ discarded alpha noset m s tm = false := by
        rw [e1]; cases hd : discarded alpha noset m s tm <;> simp
      have hget : v1.2 = Dict.set v0.2 m (if discarded alpha noset m s tm then [] else slotUsed s tm) := by
        rw [e1]; cases hd : discarded alpha noset m s tm <;> simp
      have hoth : ∀ n, n ≠ m → (n ∈ v1.1 ↔ n ∈ v0.1) := by
        intro n hn
        rw [e1]; cases hd : discarded alpha noset m s tm <;> simp [hn]
      obtain ⟨i1, i2, i3, i4⟩ := ih hk'.2 e2 (by rw [hget]; exact Dict.nodup_keys_set h0 _ _)
      refine ⟨i1, ?_, ?_, ?_⟩
      · constructor
        · intro hv
          have := (i2.1 hv).1
          rw [hget] at this
          have hg := Dict.get?_set v0.2 m m (if discarded alpha noset m s tm then [] else slotUsed s tm)
          rw [this] at hg
          simp [Dict.get?] at hg
        · rintro ⟨_, hr⟩; cases hr
      · intro n hn
        have hn' : n ≠ m ∧ n ∉ Dict.keys r := by simpa [Dict.keys] using hn
        obtain ⟨j1, j2⟩ := i3 n hn'.2
        refine ⟨j1.trans (hoth n hn'.1), ?_⟩
        rw [j2, hget, Dict.get?_set, if_neg (fun e => hn'.1 (by first | exact e | exact e.symm))]
      · intro n t hnt
        rcases List.mem_cons.1 hnt with e | hnt
        · injection e with e e'; subst e e'
          obtain ⟨j1, j2⟩ := i3 n hk'.1
          refine ⟨s, hsm, hsn, j1.trans hmem, ?_⟩
          rw [j2, hget, Dict.get?_set]; simp
        · exact i4 n t hnt

theorem mem_values {α : Type} (d : Dict α) (hd : (Dict.keys d).Nodup) (v : α) : v ∈ Dict.values d ↔ ∃ n, Dict.get? d n = some v := by
  unfold Dict.values
  rw [List.mem_map]
  constructor
  · rintro ⟨⟨n, w⟩, h, rfl⟩; exact ⟨n, Dict.get?_of_mem hd h⟩
  · rintro ⟨n, h⟩; exact ⟨(n, v), Dict.mem_of_get? h, rfl⟩

/-- the sets computed from the setup pose -/
structure SetupSets (a : AnimData F) (vis alpha noset : List Str) : Prop where
  ha : ∀ s ∈ a.slots, s.name ∈ alpha ↔ Transparent s
  hn : ∀ s ∈ a.slots, s.name ∈ noset ↔ s.Plain
  hv : ∀ n, n ∈ vis ↔ (∃ s ∈ a.slots, s.name = n) ∧ n ∉ alpha ∧ n ∉ noset

theorem slotUsed_plain {s : Slot F} (hs : s.Plain) (t : SlotTl F) : (slotUsed s t).isEmpty = true ↔ ¬ ∃ n, t.Shows n := by
  unfold slotUsed
  rw [hs.attachment, List.append_nil, List.isEmpty_iff]
  constructor
  · rintro h ⟨n, hn⟩
    have := (t.mem_used (some n)).2 ⟨n, rfl, hn⟩
    rw [h] at this; cases this
  · intro h
    rw [List.eq_nil_iff_forall_not_mem]
    intro o ho
    obtain ⟨n, _, hn⟩ := (t.mem_used o).1 ho
    exact h ⟨n, hn⟩

theorem discarded_iff {vis alpha noset : List Str} (hS : SetupSets a vis alpha noset) {s : Slot F} (hs : s ∈ a.slots) (t : SlotTl F) :
    discarded alpha noset s.name s t = false ↔ ¬ t.Blank ∧ (Transparent s → t.Coloured) ∧ (s.Plain → ∃ n, t.Shows n) := by
  unfold discarded
  rw [Bool.eq_false_iff]
  simp only [ne_eq, Bool.or_eq_true, Bool.and_eq_true, decide_eq_true_eq, hS.ha s hs, hS.hn s hs, Bool.not_eq_true',
    not_or, not_and, SlotTl.isEmpty_iff]
  rw [and_assoc]
  refine and_congr Iff.rfl (and_congr ?_ ?_)
  · refine imp_congr_right (fun _ => ?_)
    rw [← SlotTl.hasColor_iff]; simp
  · refine imp_congr_right (fun hp => ?_)
    rw [slotUsed_plain hp, Classical.not_not]

theorem shown_iff_get {x : Anim F} {vis alpha noset : List Str} (hS : SetupSets a vis alpha noset)
    {s : Slot F} (hs : s ∈ a.slots) : x.Shown s ↔
      (s.name ∉ Dict.keys x.slots ∧ s.name ∈ vis) ∨ ∃ t, (s.name, t) ∈ x.slots ∧ discarded alpha noset s.name s t = false := by
  constructor
  · intro h
    cases h with
    | setup h1 h2 h3 =>
      exact .inl ⟨h1, (hS.hv _).2 ⟨⟨s, hs, rfl⟩, fun h => h2 ((hS.ha s hs).1 h), fun h => h3 ((hS.hn s hs).1 h)⟩⟩
    | @timeline t h1 h2 h3 h4 => exact .inr ⟨t, h1, (discarded_iff hS hs t).2 ⟨h2, h3, h4⟩⟩
  · rintro (⟨h1, h2⟩ | ⟨t, h1, h2⟩)
    · obtain ⟨_, h3, h4⟩ := (hS.hv _).1 h2
      exact .setup h1 (fun h => h3 ((hS.ha s hs).2 h)) (fun h => h4 ((hS.hn s hs).2 h))
    · obtain ⟨h2, h3, h4⟩ := (discarded_iff hS hs t).1 h2
      exact .timeline h1 h2 h3 h4

theorem mem_slotUsed (s : Slot F) (t : SlotTl F) (k : Str) : some k ∈ slotUsed s t ↔ s.attachment = some k ∨ t.Shows k := by
  unfold slotUsed
  rw [List.mem_append, SlotTl.mem_used]
  constructor
  · rintro (⟨n, e, h⟩ | h)
    · injection e with e; subst e; exact .inr h
    · left
      cases ha : s.attachment with
      | none => rw [ha] at h; cases h
      | some y => rw [ha] at h; simp at h; rw [h]
  · rintro (h | h)
    · right; rw [h]; simp
    · exact .inl ⟨k, rfl, h⟩

theorem visibleIn_spec {vis alpha noset : List Str} {x : Anim F} {v : Vis} (hnd : (a.slots.map (·.name)).Nodup)
    (hx : (Dict.keys x.slots).Nodup) (hS : SetupSets a vis alpha noset) (h : visibleIn a x.slots vis alpha noset = .ok v) :
    (∀ s ∈ a.slots, s.name ∈ v.1 ↔ x.Shown s) ∧
    (∀ k, some k ∈ (Dict.values v.2).flatten ↔ ∃ s ∈ a.slots, x.Shown s ∧
      (s.attachment = some k ∨ ∃ t, (s.name, t) ∈ x.slots ∧ t.Shows k)) ∧
    (v.2 = [] ↔ x.slots = [] ∧ ∀ s ∈ a.slots, Transparent s ∨ s.Plain) := by
  unfold visibleIn at h
  obtain ⟨h1, h2, h3, h4⟩ := visFold hnd x.slots hx h (setupUsed_nodup a vis)
  refine ⟨?_, ?_, ?_⟩
  · intro s hs
    rw [shown_iff_get hS hs]
    by_cases hk : s.name ∈ Dict.keys x.slots
    · obtain ⟨t, ht⟩ := (Dict.get?_isSome_iff _ _).2 hk
      obtain ⟨s', hs', e, h5, _⟩ := h4 _ t (Dict.mem_of_get? ht)
      have := nodup_map_inj hnd hs' hs e; subst this
      rw [h5]
      constructor
      · intro h; exact .inr ⟨t, Dict.mem_of_get? ht, h⟩
      · rintro (⟨h, _⟩ | ⟨t', ht', h⟩)
        · exact absurd hk h
        · have := Dict.get?_of_mem hx ht'
          rw [ht] at this; injection this with this; subst this; exact h
    · rw [(h3 _ hk).1]
      constructor
      · intro h; exact .inl ⟨hk, h⟩
      · rintro (⟨_, h⟩ | ⟨t, ht, _⟩)
        · exact h
        · exact absurd (List.mem_map.2 ⟨_, ht, rfl⟩) hk
  · intro k
    rw [List.mem_flatten]
    constructor
    · rintro ⟨l, hl, hk⟩
      obtain ⟨n, hn⟩ := (mem_values _ h1 _).1 hl
      by_cases hx' : n ∈ Dict.keys x.slots
      · obtain ⟨t, ht⟩ := (Dict.get?_isSome_iff _ _).2 hx'
        obtain ⟨s, hs, rfl, _, h6⟩ := h4 _ t (Dict.mem_of_get? ht)
        rw [hn] at h6; injection h6 with h6
        cases hd : discarded alpha noset s.name s t with
        | true => rw [hd] at h6; simp at h6; subst h6; cases hk
        | false =>
          rw [hd] at h6; simp at h6; subst h6
          refine ⟨s, hs, (shown_iff_get hS hs).2 (.inr ⟨t, Dict.mem_of_get? ht, hd⟩), ?_⟩
          rcases (mem_slotUsed s t k).1 hk with h | h
          · exact .inl h
          · exact .inr ⟨t, Dict.mem_of_get? ht, h⟩
      · rw [(h3 n hx').2] at hn
        obtain ⟨s, hs, rfl, hv, rfl⟩ := (setupUsed_get? hnd vis n l).1 hn
        refine ⟨s, hs, (shown_iff_get hS hs).2 (.inl ⟨hx', hv⟩), .inl ?_⟩
        simp at hk; exact hk.symm
    · rintro ⟨s, hs, hsh, hk⟩
      rcases (shown_iff_get hS hs).1 hsh with ⟨h5, h6⟩ | ⟨t, ht, hd⟩
      · refine ⟨[s.attachment], (mem_values _ h1 _).2 ⟨s.name, ?_⟩, ?_⟩
        · rw [(h3 _ h5).2]; exact (setupUsed_get? hnd vis _ _).2 ⟨s, hs, rfl, h6, rfl⟩
        · rcases hk with hk | ⟨t, ht, _⟩
          · simp [hk]
          · exact absurd (List.mem_map.2 ⟨_, ht, rfl⟩) h5
      · obtain ⟨s', hs', e, _, h6⟩ := h4 _ t ht
        have := nodup_map_inj hnd hs' hs e; subst this
        rw [hd] at h6
        refine ⟨slotUsed s' t, (mem_values _ h1 _).2 ⟨_, by simpa using h6⟩, (mem_slotUsed _ _ _).2 ?_⟩
        rcases hk with hk | ⟨t', ht', hk⟩
        · exact .inl hk
        · have e1 := Dict.get?_of_mem hx ht'
          rw [Dict.get?_of_mem hx ht] at e1; injection e1 with e1; subst e1; exact .inr hk
  · rw [h2, and_comm]
    refine and_congr Iff.rfl ?_
    constructor
    · intro hn s hs
      simp only at hn
      have hg : Dict.get? (setupUsed a vis) s.name = none := by rw [hn]; rfl
      have hv : s.name ∉ vis := by
        intro hv
        rw [(setupUsed_get? hnd vis _ _).2 ⟨s, hs, rfl, hv, rfl⟩] at hg; cases hg
      rw [hS.hv] at hv
      by_cases h1 : Transparent s
      · exact .inl h1
      · by_cases h2 : s.Plain
        · exact .inr h2
        · exact absurd ⟨⟨s, hs, rfl⟩, fun h => h1 ((hS.ha s hs).1 h), fun h => h2 ((hS.hn s hs).1 h)⟩ hv
    · intro hall
      cases hu : setupUsed a vis with
      | nil => rfl
      | cons p r =>
        have hg : Dict.get? (setupUsed a vis) p.1 = some p.2 := by
          rw [hu]; obtain ⟨n, l⟩ := p; simp [Dict.get?]
        obtain ⟨s, hs, e, hv, _⟩ := (setupUsed_get? hnd vis _ _).1 hg
        rw [← e] at hv
        obtain ⟨_, h1, h2⟩ := (hS.hv _).1 hv
        rcases hall s hs with h | h
        · exact absurd ((hS.ha s hs).2 h) h1
        · exact absurd ((hS.hn s hs).2 h) h2

theorem visFold_error (alpha noset : List Str) (slots : Dict (SlotTl F)) : ∀ v0 : Vis,
    ((∃ e, foldE (visStep a alpha noset) v0 slots = .error e) ↔ ∃ n ∈ Dict.keys slots, slotsDict a n = none) ∧
    ∀ e, foldE (visStep a alpha noset) v0 slots = .error e → e = .key := by
  induction slots with
  | nil => intro v0; simp [foldE, Dict.keys]
  | cons p r ih =>
    intro v0
    rw [foldE]
    have hkeys : ∀ P : Str → Prop, (∃ n ∈ Dict.keys (p :: r), P n) ↔ P p.1 ∨ ∃ n ∈ Dict.keys r, P n := by
      intro P; simp [Dict.keys]
    rw [hkeys]
    cases hs : slotsDict a p.1 with
    | none =>
      have : visStep a alpha noset v0 p = .error .key := by unfold visStep; rw [hs]
      rw [this]
      refine ⟨⟨fun _ => .inl rfl, fun _ => ⟨_, rfl⟩⟩, ?_⟩
      intro e h; injection h with h; exact h.symm
    | some s =>
      obtain ⟨v1, hv1⟩ : ∃ v1, visStep a alpha noset v0 p = .ok v1 := by
        unfold visStep; rw [hs]; simp only; split <;> exact ⟨_, rfl⟩
      rw [hv1]
      refine ⟨(ih v1).1.trans ?_, (ih v1).2⟩
      simp

/-! ### the loop over the animations -/

theorem usedFold {vis alpha noset : List Str} (hnd : (a.slots.map (·.name)).Nodup) (hS : SetupSets a vis alpha noset) (l : List (Anim F)) :
    ∀ {acc r : List Str × List (Option Str)}, (∀ x ∈ l, (Dict.keys x.slots).Nodup) → foldE (usedStep a vis alpha noset) acc l = .ok r →
      (∀ s ∈ a.slots, s.name ∈ r.1 ↔ s.name ∈ acc.1 ∨ ∃ x ∈ l, x.Shown s) ∧
      (∀ k, some k ∈ r.2 ↔ some k ∈ acc.2 ∨ ∃ x ∈ l, ∃ s ∈ a.slots, x.Shown s ∧
        (s.attachment = some k ∨ ∃ t, (s.name, t) ∈ x.slots ∧ t.Shows k)) := by
  induction l with
  | nil => intro acc r _ h; simp only [foldE] at h; injection h with h; subst h; simp
  | cons x l ih =>
    intro acc r hx h
    rw [foldE] at h
    cases hu : usedStep a vis alpha noset acc x with
    | error e => rw [hu] at h; cases h
    | ok acc1 =>
      rw [hu] at h
      unfold usedStep at hu
      cases hv : visibleIn a x.slots vis alpha noset with
      | error e => rw [hv] at hu; cases hu
      | ok v =>
        rw [hv] at hu
        obtain ⟨v1, u1⟩ := v
        simp only at hu
        split at hu
        · cases hu
        · injection hu with hu
          subst hu
          obtain ⟨p1, p2, _⟩ := visibleIn_spec hnd (hx x (by simp)) hS hv
          obtain ⟨q1, q2⟩ := ih (fun y hy => hx y (by simp [hy])) h
          refine ⟨?_, ?_⟩
          · intro s hs
            rw [q1 s hs, List.mem_append, p1 s hs]
            simp only [List.mem_cons, exists_eq_or_imp]
            rw [or_assoc]
          · intro k
            rw [q2 k, List.mem_append, p2 k]
            simp only [List.mem_cons, exists_eq_or_imp]
            rw [or_assoc]

theorem usedFold_error {vis alpha noset : List Str} (hnd : (a.slots.map (·.name)).Nodup) (hS : SetupSets a vis alpha noset) (l : List (Anim F)) :
    ∀ acc : List Str × List (Option Str), (∀ x ∈ l, (Dict.keys x.slots).Nodup) →
      ((∃ e, foldE (usedStep a vis alpha noset) acc l = .error e) ↔ ∃ x ∈ l, (∃ n ∈ Dict.keys x.slots, n = [] ∨ ∀ s ∈ a.slots, s.name ≠ n) ∨
        (x.slots = [] ∧ ∀ s ∈ a.slots, Transparent s ∨ s.Plain)) := by
  induction l with
  | nil => intro acc _; simp [foldE]
  | cons x l ih =>
    intro acc hx
    rw [foldE]
    simp only [List.mem_cons, exists_eq_or_imp]
    have herr := visFold_error (a := a) alpha noset x.slots (vis, setupUsed a vis)
    have e1 : (∃ n ∈ Dict.keys x.slots, slotsDict a n = none) ↔ ∃ n ∈ Dict.keys x.slots, n = [] ∨ ∀ s ∈ a.slots, s.name ≠ n := by
      simp only [slotsDict_none]
    have hstep : usedStep a vis alpha noset acc x = match visibleIn a x.slots vis alpha noset with
      | .error e => .error e
      | .ok (v, u) => if u.isEmpty then .error .type else .ok (acc.1 ++ v, acc.2 ++ (Dict.values u).flatten) := rfl
    rw [hstep]
    cases hv : visibleIn a x.slots vis alpha noset with
    | error e =>
      simp only [reduceCtorEq, Except.error.injEq]
      have := herr.1.1 ⟨e, hv⟩
      exact ⟨fun _ => .inl (.inl (e1.1 this)), fun _ => ⟨_, rfl⟩⟩
    | ok v =>
      obtain ⟨v1, u1⟩ := v
      have hno : ¬ ∃ n ∈ Dict.keys x.slots, n = [] ∨ ∀ s ∈ a.slots, s.name ≠ n := by
        rw [← e1, ← herr.1]
        rintro ⟨e, h⟩
        unfold visibleIn at hv; rw [hv] at h; cases h
      obtain ⟨_, _, p3⟩ := visibleIn_spec hnd (hx x (by simp)) hS hv
      simp only at p3 ⊢
      by_cases hu : u1 = []
      · subst hu
        simp only [List.isEmpty_nil, if_true]
        exact ⟨fun _ => .inl (.inr (p3.1 rfl)), fun _ => ⟨_, rfl⟩⟩
      · have hb : u1.isEmpty = false := by simpa [List.isEmpty_iff] using hu
        simp only [hb, Bool.false_eq_true, if_false]
        rw [ih _ (fun y hy => hx y (by simp [hy]))]
        constructor
        · intro h; exact .inr h
        · rintro ((h | h) | h)
          · exact absurd h hno
          · exact absurd (p3.2 h) hu
          · exact h

/-! ### the whole function -/

theorem setupSets (hnd : (a.slots.map (·.name)).Nodup) {alpha : List Str} (h : alphaZero a.slots = .ok alpha) :
    SetupSets a ((a.slots.map (·.name)).filter (fun n => n ∉ alpha ++ noSetup a.slots)) alpha (noSetup a.slots) := by
  refine ⟨?_, ?_, ?_⟩
  · intro s hs
    rw [c57_transparent_exact a.slots alpha h s.name]
    constructor
    · rintro ⟨s', hs', e, ht⟩; rwa [nodup_map_inj hnd hs' hs e] at ht
    · intro ht; exact ⟨s, hs, rfl, ht⟩
  · intro s hs
    unfold noSetup
    rw [List.mem_map]
    constructor
    · rintro ⟨s', hs', e⟩
      obtain ⟨h1, h2⟩ := List.mem_filter.1 hs'
      rw [nodup_map_inj hnd h1 hs e] at h2
      exact (Slot.plain_iff s).2 h2
    · intro hp; exact ⟨s, List.mem_filter.2 ⟨hs, (Slot.plain_iff s).1 hp⟩, rfl⟩
  · intro n
    simp [and_assoc]

theorem mem_dictValues {α : Type} {d : Dict α} {v : α} : v ∈ Dict.values d ↔ ∃ n, (n, v) ∈ d := by
  unfold Dict.values
  rw [List.mem_map]
  constructor
  · rintro ⟨⟨n, w⟩, h, rfl⟩; exact ⟨n, h⟩
  · rintro ⟨n, h⟩; exact ⟨_, h, rfl⟩

/-- what `get_unused_slots_and_attachments` returns -/
theorem unused_spec (hnd : (a.slots.map (·.name)).Nodup) (han : ∀ p ∈ a.animations, (Dict.keys p.2.slots).Nodup) {slots atts : List Str}
    (h : unused a = .ok (slots, atts)) :
    (∀ n, n ∈ slots ↔ ∃ s ∈ a.slots, s.name = n ∧ ¬ a.Shown s) ∧
    (∀ k, k ∈ atts ↔ ¬ a.Uses k ∧ ∃ slot x, a.HasAtt slot k x ∧
      ¬ (x.kind = .mesh ∧ ¬ ∃ s ∈ a.slots, s.name = slot ∧ ¬ a.Shown s)) := by
  unfold unused at h
  cases ha : alphaZero a.slots with
  | error e => rw [ha] at h; cases h
  | ok alpha =>
    rw [ha] at h
    simp only at h
    have hS := setupSets hnd ha
    generalize hvis : (a.slots.map (·.name)).filter (fun n => n ∉ alpha ++ noSetup a.slots) = vis at h hS
    generalize hnos : noSetup a.slots = noset at h hS
    cases hf : foldE (usedStep a vis alpha noset) ([], []) (Dict.values a.animations) with
    | error e => rw [hf] at h; cases h
    | ok r =>
      rw [hf] at h
      obtain ⟨v, used⟩ := r
      simp only [Except.ok.injEq, Prod.mk.injEq] at h
      obtain ⟨rfl, rfl⟩ := h
      obtain ⟨p1, p2⟩ := usedFold hnd hS _ (by
        intro x hx
        obtain ⟨n, hn⟩ := mem_dictValues.1 hx
        exact han _ hn) hf
      have q1 : ∀ s ∈ a.slots, s.name ∈ v ↔ a.Shown s := by
        intro s hs
        rw [p1 s hs]
        unfold AnimData.Shown
        simp only [List.not_mem_nil, false_or]
        constructor
        · rintro ⟨x, hx, hsh⟩; obtain ⟨n, hn⟩ := mem_dictValues.1 hx; exact ⟨n, x, hn, hsh⟩
        · rintro ⟨n, x, hn, hsh⟩; exact ⟨x, mem_dictValues.2 ⟨n, hn⟩, hsh⟩
      have q2 : ∀ k, some k ∈ used ↔ a.Uses k := by
        intro k
        rw [p2 k]
        unfold AnimData.Uses
        simp only [List.not_mem_nil, false_or]
        constructor
        · rintro ⟨x, hx, hsh⟩; obtain ⟨n, hn⟩ := mem_dictValues.1 hx; exact ⟨n, x, hn, hsh⟩
        · rintro ⟨n, x, hn, hsh⟩; exact ⟨x, mem_dictValues.2 ⟨n, hn⟩, hsh⟩
      have hinv : ∀ n, n ∈ (a.slots.map (·.name)).filter (fun n => n ∉ v) ↔ ∃ s ∈ a.slots, s.name = n ∧ ¬ a.Shown s := by
        intro n
        rw [List.mem_filter, List.mem_map]
        constructor
        · rintro ⟨⟨s, hs, rfl⟩, hv⟩
          exact ⟨s, hs, rfl, fun h => by rw [q1 s hs |>.2 h |> fun h => decide_eq_false (fun hn => hn h)] at hv; cases hv⟩
        · rintro ⟨s, hs, rfl, hv⟩
          exact ⟨⟨s, hs, rfl⟩, decide_eq_true (fun h => hv ((q1 s hs).1 h))⟩
      refine ⟨fun n => (mem_eraseDups _ _).trans (hinv n), ?_⟩
      intro k
      rw [mem_eraseDups, List.mem_flatMap]
      constructor
      · rintro ⟨s, hs, hk⟩
        unfold unusedIn at hk
        obtain ⟨⟨slot, d⟩, hd, hk⟩ := List.mem_flatMap.1 hk
        obtain ⟨⟨k', x⟩, hx, e⟩ := List.mem_map.1 hk
        obtain ⟨hx1, hx2⟩ := List.mem_filter.1 hx
        simp only at e; subst e
        simp only [Bool.and_eq_true, decide_eq_true_eq, Bool.not_eq_true', Bool.and_eq_false_iff] at hx2
        refine ⟨fun h => hx2.1 ((q2 _).2 h), slot, x, ⟨s, hs, d, hd, hx1⟩, ?_⟩
        rintro ⟨hm, hno⟩
        rcases hx2.2 with h | h
        · rw [hm] at h; cases h
        · rw [decide_eq_false_iff_not, Classical.not_not] at h
          exact hno ((hinv slot).1 h)
      · rintro ⟨h1, slot, x, ⟨s, hs, d, hd, hx⟩, h2⟩
        refine ⟨s, hs, ?_⟩
        unfold unusedIn
        refine List.mem_flatMap.2 ⟨(slot, d), hd, List.mem_map.2 ⟨(k, x), List.mem_filter.2 ⟨hx, ?_⟩, rfl⟩⟩
        simp only [Bool.and_eq_true, decide_eq_true_eq, Bool.not_eq_true', Bool.and_eq_false_iff]
        refine ⟨fun h => h1 ((q2 _).1 h), ?_⟩
        by_cases hm : x.kind = .mesh
        · right
          rw [decide_eq_false_iff_not, Classical.not_not, hinv]
          exact Classical.not_not.1 (fun h => h2 ⟨hm, h⟩)
        · left; simpa using hm

/-- when `get_unused_slots_and_attachments` raises -/
theorem unused_error (hnd : (a.slots.map (·.name)).Nodup) (han : ∀ p ∈ a.animations, (Dict.keys p.2.slots).Nodup) :
    (∃ e, unused a = .error e) ↔
      (∃ s ∈ a.slots, ∃ c, s.color = some c ∧ ¬ ∃ n, HexText F c n) ∨
      (∃ p ∈ a.animations, ∃ n ∈ Dict.keys p.2.slots, n = [] ∨ ∀ s ∈ a.slots, s.name ≠ n) ∨
      (∃ p ∈ a.animations, p.2.slots = [] ∧ ∀ s ∈ a.slots, Transparent s ∨ s.Plain) := by
  rw [← (c57_bad_colour a.slots).1]
  unfold unused
  cases ha : alphaZero a.slots with
  | error e => simp
  | ok alpha =>
    simp only
    have hS := setupSets hnd ha
    generalize hvis : (a.slots.map (·.name)).filter (fun n => n ∉ alpha ++ noSetup a.slots) = vis at hS ⊢
    generalize hnos : noSetup a.slots = noset at hS ⊢
    have key := usedFold_error hnd hS (Dict.values a.animations) ([], []) (by
        intro x hx
        obtain ⟨n, hn⟩ := mem_dictValues.1 hx
        exact han _ hn)
    refine Iff.trans (b := ∃ e, foldE (usedStep a vis alpha noset) ([], []) (Dict.values a.animations) = .error e) ?_ (key.trans ?_)
    · cases foldE (usedStep a vis alpha noset) ([], []) (Dict.values a.animations) with
      | error e => simp
      | ok r => simp
    constructor
    · rintro ⟨x, hx, h | h⟩
      · obtain ⟨n, hn⟩ := mem_dictValues.1 hx; exact .inr (.inl ⟨_, hn, h⟩)
      · obtain ⟨n, hn⟩ := mem_dictValues.1 hx; exact .inr (.inr ⟨_, hn, h⟩)
    · rintro (⟨e, h⟩ | ⟨p, hp, h⟩ | ⟨p, hp, h⟩)
      · cases h
      · exact ⟨p.2, mem_dictValues.2 ⟨p.1, hp⟩, .inl h⟩
      · exact ⟨p.2, mem_dictValues.2 ⟨p.1, hp⟩, .inr h⟩

end AnimData
end Spine
