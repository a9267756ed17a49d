import Verif.Lemmas.AliasMono
/-
Every computation of Model/Alias.lean changes only objects of its region, stores only references of its region in them, and
returns such references.
-/
set_option linter.unusedSectionVars false
namespace Spine
namespace Alias
open M
variable {F : Type}

/-- values whose references all point into a region -/
class Ins (α : Type) where
  ins : (Nat → Prop) → α → Prop
export Ins (ins)

instance (priority := low) insAny {α : Type} : Ins α := ⟨fun _ _ => True⟩
instance insRef : Ins (Ref F) := ⟨fun R r => ∀ a, r = .ptr a → R a⟩
instance insList {α : Type} [Ins α] : Ins (List α) := ⟨fun R l => ∀ x ∈ l, ins R x⟩
instance insProd {α β : Type} [Ins α] [Ins β] : Ins (α × β) := ⟨fun R p => ins R p.1 ∧ ins R p.2⟩
instance insOption {α : Type} [Ins α] : Ins (Option α) := ⟨fun R o => ∀ x, o = some x → ins R x⟩
instance insExcept {α : Type} [Ins α] : Ins (Except Err α) := ⟨fun R o => ∀ x, o = .ok x → ins R x⟩
instance insObj : Ins (Obj F) := ⟨fun R o => ∀ r ∈ o.refs, ins R r⟩
instance insGraph : Ins (Graph NType (Int × Ref F)) := ⟨fun R g => ∀ p ∈ g.nodes, ins R p.2.data.2⟩
instance insEd : Ins (Ed F) := ⟨fun R e => ins R e.skeleton ∧ ins R e.data ∧ ins R e.images ∧ ins R e.graph⟩

/-- values without references -/
class Plain (α : Type) [Ins α] : Prop where
  all : ∀ (R : Nat → Prop) (x : α), ins R x
instance {α : Type} : @Plain α insAny := @Plain.mk α insAny (fun _ _ => trivial)
instance {α : Type} [Ins α] [Plain α] : Plain (List α) := ⟨fun R _ x _ => Plain.all R x⟩
instance {α β : Type} [Ins α] [Ins β] [Plain α] [Plain β] : Plain (α × β) := ⟨fun R x => ⟨Plain.all R x.1, Plain.all R x.2⟩⟩
instance {α : Type} [Ins α] [Plain α] : Plain (Option α) := ⟨fun R _ x _ => Plain.all R x⟩
instance {α : Type} [Ins α] [Plain α] : Plain (Except Err α) := ⟨fun R _ x _ => Plain.all R x⟩

/-- the objects of the region refer to the region -/
def Closed (R : Nat → Prop) (h : Heap F) : Prop := ∀ a o, R a → h[a]? = some o → ins R o

/-- the computation stays in the region, to which its new objects belong -/
structure Safe {α : Type} [Ins α] (R : Nat → Prop) (m : M F α) : Prop where
  run : ∀ h, Closed R h → (∀ a, h.length ≤ a → a < (m h).2.length → R a) →
    (∀ a, ¬ R a → (m h).2[a]? = h[a]?) ∧ Closed R (m h).2 ∧ ∀ x, (m h).1 = .ok x → ins R x

section Basic
variable {α β : Type} [Ins α] [Ins β] {R : Nat → Prop}

theorem Safe.pure {x : α} (hx : ins R x) : Safe (F := F) R (Pure.pure x) := by
  constructor
  intro h hc _
  refine ⟨fun _ _ => rfl, hc, ?_⟩
  intro y hy
  cases (Except.ok.inj hy)
  exact hx

theorem Safe.raise {e : Err} : Safe (α := α) (F := F) R (M.raise e) := by
  constructor
  intro h hc _
  refine ⟨fun _ _ => rfl, hc, ?_⟩
  intro y hy
  cases hy

theorem Safe.lift {r : Except Err α} (hr : ∀ x, r = .ok x → ins R x) : Safe (F := F) R (M.lift r) := by
  constructor
  intro h hc _
  exact ⟨fun _ _ => rfl, hc, hr⟩

theorem Safe.view {f : Heap F → Option α} {e : Err} (hf : ∀ h x, f h = some x → ins R x) : Safe R (M.view f e) := by
  constructor
  intro h hc _
  unfold M.view
  split
  · rename_i x hx
    refine ⟨fun _ _ => rfl, hc, ?_⟩
    intro y hy
    cases Except.ok.inj hy
    exact hf h _ hx
  · refine ⟨fun _ _ => rfl, hc, ?_⟩
    intro y hy
    cases hy

theorem Safe.bind {m : M F α} {f : α → M F β} (hmm : Mono m) (hmono : ∀ x, Mono (f x)) (hm : Safe R m) (hf : ∀ x, ins R x → Safe R (f x)) :
    Safe R (m >>= f) := by
  constructor
  intro h hc
  have hm' := hm.run h hc
  have hl := hmm.le h
  rw [bind_eq]
  revert hm' hl
  generalize m h = q
  intro hm' hl
  match q, hm', hl with
  | (.error e, h1), hm', hl =>
    intro hr
    have := hm' hr
    refine ⟨this.1, this.2.1, ?_⟩
    intro x hx
    cases hx
  | (.ok x, h1), hm', hl =>
    intro hr
    have h2 := (hmono x).le h1
    have h3 := hm' (fun a ha hb => hr a ha (Nat.lt_of_lt_of_le hb h2))
    have h4 := (hf x (h3.2.2 x rfl)).run h1 h3.2.1 (fun a ha hb => hr a (Nat.le_trans hl ha) hb)
    exact ⟨fun a ha => (h4.1 a ha).trans (h3.1 a ha), h4.2⟩

theorem Safe.attempt {m : M F α} (hm : Safe R m) : Safe R (M.attempt m) := by
  constructor
  intro h hc hr
  have := hm.run h hc hr
  refine ⟨this.1, this.2.1, ?_⟩
  intro x hx
  cases Except.ok.inj hx
  exact this.2.2

theorem Safe.alloc {o : Obj F} (ho : ins R o) : Safe R (M.alloc o) := by
  constructor
  intro h hc hr
  simp only [M.alloc] at hr ⊢
  have hn : R h.length := hr _ (Nat.le_refl _) (by simp)
  refine ⟨?_, ?_, ?_⟩
  · intro a ha
    rcases Nat.lt_trichotomy a h.length with h1 | h1 | h1
    · rw [List.getElem?_append_left h1]
    · exact absurd (h1 ▸ hn) ha
    · rw [List.getElem?_eq_none (by simp; omega), List.getElem?_eq_none (by omega)]
  · intro a x ha hx
    rcases Nat.lt_trichotomy a h.length with h1 | h1 | h1
    · rw [List.getElem?_append_left h1] at hx
      exact hc a x ha hx
    · subst h1
      simp at hx
      exact hx ▸ ho
    · rw [List.getElem?_eq_none (by simp; omega)] at hx
      cases hx
  · intro x hx
    cases Except.ok.inj hx
    intro a ha
    cases ha
    exact hn

theorem Safe.store {a : Nat} {o : Obj F} (ha : R a) (ho : ins R o) : Safe R (M.store a o) := by
  constructor
  intro h hc hr
  simp only [M.store] at hr ⊢
  refine ⟨?_, ?_, fun _ _ => trivial⟩
  · intro b hb
    rw [List.getElem?_set_ne]
    intro h1
    exact hb (h1 ▸ ha)
  · intro b x hb hx
    by_cases h1 : a = b
    · subst h1
      by_cases h2 : a < h.length
      · rw [List.getElem?_set_self h2] at hx
        cases hx
        exact ho
      · rw [List.getElem?_eq_none (by simp; omega)] at hx
        cases hx
    · rw [List.getElem?_set_ne h1] at hx
      exact hc b x hb hx

/-- a computation that only reads -/
structure Reads (m : M F α) : Prop where
  same : ∀ h, (m h).2 = h

theorem Safe.read_bind {m : M F α} {f : α → M F β} (hm : Reads m) (hf : ∀ x, Safe R (f x)) : Safe R (m >>= f) := by
  constructor
  intro h hc
  rw [bind_eq]
  have h1 := hm.same h
  revert h1
  generalize m h = q
  intro h1
  match q, h1 with
  | (.error e, h2), h1 =>
    intro _
    cases h1
    refine ⟨fun _ _ => rfl, hc, ?_⟩
    intro x hx
    cases hx
  | (.ok x, h2), h1 =>
    cases h1
    exact (hf x).run _ hc

theorem Safe.look {a : Nat} (ha : R a) : Safe (F := F) R (M.look a) := by
  constructor
  intro h hc _
  unfold M.look
  split
  · rename_i o ho
    refine ⟨fun _ _ => rfl, hc, ?_⟩
    intro x hx
    cases Except.ok.inj hx
    exact hc a _ ha ho
  · refine ⟨fun _ _ => rfl, hc, ?_⟩
    intro x hx
    cases hx

omit [Ins α] in
theorem Reads.look {a : Nat} : Reads (F := F) (M.look a) := by
  constructor
  intro h
  unfold M.look
  split <;> rfl

omit [Ins α] in
theorem Reads.view {f : Heap F → Option α} {e : Err} : Reads (M.view f e) := by
  constructor
  intro h
  unfold M.view
  split <;> rfl

end Basic

/-! ### References of a region -/

section Ins
variable {R : Nat → Prop}

@[simp] theorem ins_null : ins R (Ref.null : Ref F) ↔ True := ⟨fun _ => trivial, fun _ _ h => by cases h⟩
@[simp] theorem ins_bool {b : Bool} : ins R (Ref.bool b : Ref F) ↔ True := ⟨fun _ => trivial, fun _ _ h => by cases h⟩
@[simp] theorem ins_int {b : Int} : ins R (Ref.int b : Ref F) ↔ True := ⟨fun _ => trivial, fun _ _ h => by cases h⟩
@[simp] theorem ins_flt {b : F} : ins R (Ref.flt b : Ref F) ↔ True := ⟨fun _ => trivial, fun _ _ h => by cases h⟩
@[simp] theorem ins_strR {b : Str} : ins R (Ref.str b : Ref F) ↔ True := ⟨fun _ => trivial, fun _ _ h => by cases h⟩
@[simp] theorem ins_ptr {a : Nat} : ins R (Ref.ptr a : Ref F) ↔ R a :=
  ⟨fun h => h a rfl, fun h b hb => by cases hb; exact h⟩
@[simp] theorem ins_plain {α : Type} [Ins α] [Plain α] {x : α} : ins R x ↔ True := ⟨fun _ => trivial, fun _ => Plain.all R x⟩
@[simp] theorem ins_any {α : Type} {x : α} : @Ins.ins α insAny R x ↔ True := Iff.rfl
@[simp] theorem ins_str {s : Str} : ins R s ↔ True := ⟨fun _ => trivial, fun _ _ _ => trivial⟩
@[simp] theorem ins_strs {s : List Str} : ins R s ↔ True := ⟨fun _ => trivial, fun _ _ _ _ _ => trivial⟩
@[simp] theorem ins_pair {α β : Type} [Ins α] [Ins β] {x : α} {y : β} : ins R (x, y) ↔ ins R x ∧ ins R y := Iff.rfl
theorem ins_fst {α β : Type} [Ins α] [Ins β] {p : α × β} (h : ins R p) : ins R p.1 := h.1
theorem ins_snd {α β : Type} [Ins α] [Ins β] {p : α × β} (h : ins R p) : ins R p.2 := h.2
@[simp] theorem ins_nil {α : Type} [Ins α] : ins R ([] : List α) ↔ True := ⟨fun _ => trivial, fun _ _ h => by cases h⟩
@[simp] theorem ins_cons {α : Type} [Ins α] {x : α} {l : List α} : ins R (x :: l) ↔ ins R x ∧ ins R l :=
  ⟨fun h => ⟨h x (by simp), fun y hy => h y (by simp [hy])⟩, fun h y hy => by
    rcases List.mem_cons.mp hy with rfl | hy
    · exact h.1
    · exact h.2 y hy⟩
theorem ins_mem {α : Type} [Ins α] {x : α} {l : List α} (h : ins R l) (hx : x ∈ l) : ins R x := h x hx
@[simp] theorem ins_none {α : Type} [Ins α] : ins R (none : Option α) ↔ True := ⟨fun _ => trivial, fun _ _ h => by cases h⟩
@[simp] theorem ins_some {α : Type} [Ins α] {x : α} : ins R (some x) ↔ ins R x :=
  ⟨fun h => h x rfl, fun h y hy => by cases hy; exact h⟩
@[simp] theorem ins_error {α : Type} [Ins α] {e : Err} : ins R (Except.error e : Except Err α) ↔ True :=
  ⟨fun _ => trivial, fun _ _ h => by cases h⟩
@[simp] theorem ins_ok {α : Type} [Ins α] {x : α} : ins R (Except.ok x : Except Err α) ↔ ins R x :=
  ⟨fun h => h x rfl, fun h y hy => by cases hy; exact h⟩
@[simp] theorem ins_listO {l : List (Ref F)} : ins R (Obj.list l) ↔ ins R l := Iff.rfl
@[simp] theorem ins_dictO {d : Dict (Ref F)} : ins R (Obj.dict d) ↔ ins R d :=
  ⟨fun h p hp => ⟨ins_str.mpr trivial, h p.2 (List.mem_map.mpr ⟨p, hp, rfl⟩)⟩, fun h r hr => by
    obtain ⟨p, hp, rfl⟩ := List.mem_map.mp hr
    exact (h p hp).2⟩
@[simp] theorem ins_inst {t : Tag} {d : Dict (Ref F)} : ins R (Obj.inst t d) ↔ ins R d :=
  ⟨fun h p hp => ⟨ins_str.mpr trivial, h p.2 (List.mem_map.mpr ⟨p, hp, rfl⟩)⟩, fun h r hr => by
    obtain ⟨p, hp, rfl⟩ := List.mem_map.mp hr
    exact (h p hp).2⟩

theorem ins_get {α : Type} [Ins α] {d : Dict α} {k : Str} {v : α} (hd : ins R d) (h : Dict.get? d k = some v) : ins R v := by
  induction d with
  | nil => cases h
  | cons p r ih =>
    unfold Dict.get? at h
    rw [ins_cons] at hd
    split at h
    · cases h
      exact hd.1.2
    · exact ih hd.2 h

theorem ins_getD {α : Type} [Ins α] {d : Dict α} {k : Str} {w : α} (hd : ins R d) (hw : ins R w) :
    ins R ((Dict.get? d k).getD w) := by
  cases h : Dict.get? d k with
  | none => exact hw
  | some v => exact ins_get hd h

theorem ins_set {α : Type} [Ins α] {d : Dict α} {k : Str} {w : α} (hd : ins R d) (hw : ins R w) : ins R (Dict.set d k w) := by
  induction d with
  | nil =>
    unfold Dict.set
    exact ins_cons.mpr ⟨⟨ins_str.mpr trivial, hw⟩, ins_nil.mpr trivial⟩
  | cons p r ih =>
    rw [ins_cons] at hd
    unfold Dict.set
    split
    · exact ins_cons.mpr ⟨⟨ins_str.mpr trivial, hw⟩, hd.2⟩
    · exact ins_cons.mpr ⟨hd.1, ih hd.2⟩

theorem ins_filter {α : Type} [Ins α] {l : List α} {q : α → Bool} (hl : ins R l) : ins R (l.filter q) :=
  fun x hx => hl x (List.mem_filter.mp hx).1

theorem ins_del {α : Type} [Ins α] {d : Dict α} {k : Str} (hd : ins R d) : ins R (Dict.del d k) := ins_filter hd

theorem ins_values {α : Type} [Ins α] {d : Dict α} (hd : ins R d) : ins R (Dict.values d) := by
  intro x hx
  obtain ⟨p, hp, rfl⟩ := List.mem_map.mp hx
  exact (hd p hp).2

theorem ins_zip {α β : Type} [Ins α] [Ins β] {l : List α} {k : List β} (hl : ins R l) (hk : ins R k) : ins R (l.zip k) := by
  intro x hx
  have := List.of_mem_zip hx
  exact ⟨hl _ this.1, hk _ this.2⟩

theorem ins_lookup {m : Memo F} {a : Nat} {b : Ref F} (hm : ins R m) (h : m.lookup a = some b) : ins R b := by
  induction m with
  | nil => cases h
  | cons p r ih =>
    obtain ⟨k, v⟩ := p
    rw [ins_cons] at hm
    simp only [List.lookup_cons] at h
    split at h
    · cases h
      exact hm.1.2
    · exact ih hm.2 h
end Ins

/-! ### The computations -/

/-- closes goals about references -/
syntax "ins1" : tactic
macro_rules | `(tactic| ins1) => `(tactic| first
  | with_reducible assumption
  | with_reducible trivial
  | (with_reducible exact ins_snd (by with_reducible assumption))
  | (with_reducible exact ins_fst (by with_reducible assumption))
  | (simp_all only [ins_null, ins_bool, ins_int, ins_flt, ins_strR, ins_ptr, ins_plain, ins_pair, ins_nil,
      ins_cons, ins_none, ins_some, ins_error, ins_ok, ins_listO, ins_dictO, ins_inst, and_self, and_true, true_and,
      ins_set, ins_del, ins_filter, ins_values, ins_zip, ins_getD]; done)
  | ((try simp only [ins_null, ins_bool, ins_int, ins_flt, ins_strR, ins_ptr, ins_plain, ins_pair, ins_nil,
      ins_cons, ins_none, ins_some, ins_error, ins_ok, ins_listO, ins_dictO, ins_inst, and_self, and_true, true_and] at *);
      (with_reducible refine ins_get ?_ (by with_reducible assumption)); ins1))

/-- closes the steps of a proof that a computation stays in its region -/
syntax "safe1" : tactic
macro_rules | `(tactic| safe1) => `(tactic| with_reducible refine Safe.pure ?_)
macro_rules | `(tactic| safe1) => `(tactic| with_reducible exact Safe.raise)
macro_rules | `(tactic| safe1) => `(tactic| with_reducible refine Safe.alloc ?_)
macro_rules | `(tactic| safe1) => `(tactic| with_reducible assumption)
syntax "safe" : tactic
macro_rules | `(tactic| safe) => `(tactic|
  (repeat' (first
    | ((with_reducible show @Safe _ _ _ _ _); first
      | safe1
      | with_reducible refine Safe.attempt ?_
      | with_reducible refine Safe.bind ?_ (fun _ => ?_) ?_ (fun _ _ => ?_)
      | split)
    | ((with_reducible show @Mono _ _ _); mono; done))) <;> (try ins1))

section Steps
variable {R : Nat → Prop}

theorem safe_mapL {α β : Type} [Ins α] [Ins β] {f : α → M F β} (hm : ∀ x, Mono (f x)) {l : List α} (hl : ins R l)
    (hf : ∀ x, ins R x → Safe R (f x)) : Safe R (mapL f l) := by
  induction l with
  | nil => exact Safe.pure (ins_nil.mpr trivial)
  | cons x r ih =>
    rw [ins_cons] at hl
    have h1 := ih hl.2
    have h2 := hf x hl.1
    have h3 := hm x
    unfold mapL
    safe
macro_rules | `(tactic| safe1) => `(tactic| with_reducible refine safe_mapL (fun _ => ?_) ?_ (fun _ _ => ?_))

theorem safe_mapV {α β : Type} [Ins α] [Ins β] {f : α → M F β} (hm : ∀ x, Mono (f x)) {d : Dict α} (hd : ins R d)
    (hf : ∀ x, ins R x → Safe R (f x)) : Safe R (mapV f d) := by
  unfold mapV
  refine safe_mapL ?_ hd ?_
  · intro x
    have := hm x.2
    mono
  · intro x hx
    have h1 := hf x.2 hx.2
    have h3 := hm x.2
    safe
macro_rules | `(tactic| safe1) => `(tactic| with_reducible refine safe_mapV (fun _ => ?_) ?_ (fun _ _ => ?_))

theorem safe_each {α : Type} [Ins α] {f : α → M F Unit} (hm : ∀ x, Mono (f x)) {l : List α} (hl : ins R l)
    (hf : ∀ x, ins R x → Safe R (f x)) : Safe R (each f l) := by
  induction l with
  | nil => exact Safe.pure trivial
  | cons x r ih =>
    rw [ins_cons] at hl
    have h1 := ih hl.2
    have h2 := hf x hl.1
    have h3 := hm x
    have h4 := mono_each hm r
    unfold each
    safe
macro_rules | `(tactic| safe1) => `(tactic| with_reducible refine safe_each (fun _ => ?_) ?_ (fun _ _ => ?_))

theorem safe_fill {r : Ref F} {o : Obj F} (hr : ins R r) (ho : ins R o) : Safe R (fill r o) := by
  unfold fill
  split
  · exact Safe.store (ins_ptr.mp hr) ho
  · exact Safe.pure trivial
macro_rules | `(tactic| safe1) => `(tactic| with_reducible refine safe_fill ?_ ?_)

theorem safe_copyL {f : Memo F → Ref F → M F (Ref F × Memo F)} (hm : ∀ m x, Mono (f m x))
    (hf : ∀ m x, ins R m → Safe R (f m x)) (l : List (Ref F)) : ∀ m, ins R m → Safe R (copyL f l m) := by
  induction l with
  | nil => exact fun m h => Safe.pure (ins_pair.mpr ⟨ins_nil.mpr trivial, h⟩)
  | cons x r ih =>
    intro m h
    unfold copyL
    refine Safe.bind (hm m x) (fun p => Mono.bind (mono_copyL hm r p.2) (fun q => Mono.pure)) (hf m x h) (fun p hp => ?_)
    refine Safe.bind (mono_copyL hm r p.2) (fun q => Mono.pure) (ih p.2 hp.2) (fun q hq => ?_)
    exact Safe.pure ⟨ins_cons.mpr ⟨hp.1, hq.1⟩, hq.2⟩

theorem safe_copyD {f : Memo F → Ref F → M F (Ref F × Memo F)} (hm : ∀ m x, Mono (f m x))
    (hf : ∀ m x, ins R m → Safe R (f m x)) (l : Dict (Ref F)) : ∀ m, ins R m → Safe R (copyD f l m) := by
  induction l with
  | nil => exact fun m h => Safe.pure (ins_pair.mpr ⟨ins_nil.mpr trivial, h⟩)
  | cons x r ih =>
    intro m h
    unfold copyD
    refine Safe.bind (hm m x.2) (fun p => Mono.bind (mono_copyD hm r p.2) (fun q => Mono.pure)) (hf m x.2 h) (fun p hp => ?_)
    refine Safe.bind (mono_copyD hm r p.2) (fun q => Mono.pure) (ih p.2 hp.2) (fun q hq => ?_)
    exact Safe.pure ⟨ins_cons.mpr ⟨⟨ins_str.mpr trivial, hp.1⟩, hq.1⟩, hq.2⟩

theorem safe_copyStep {f : Memo F → Ref F → M F (Ref F × Memo F)} (hm : ∀ m x, Mono (f m x))
    (hf : ∀ m x, ins R m → Safe R (f m x)) (m : Memo F) (r : Ref F) (h : ins R m) : Safe R (copyStep f m r) := by
  have h1 := fun l => safe_copyL hm hf l
  have h2 := fun l => safe_copyD hm hf l
  have h3 := mono_copyL hm
  have h4 := mono_copyD hm
  unfold copyStep
  split
  · split
    · rename_i hb
      exact Safe.pure ⟨ins_lookup h hb, h⟩
    · refine Safe.read_bind Reads.look (fun o => ?_)
      split
      · rename_i l
        refine Safe.bind Mono.alloc (fun b => Mono.bind (h3 _ _) (fun _ => ?_)) (Safe.alloc (ins_nil.mpr trivial)) (fun b hb => ?_)
        · mono
        · refine Safe.bind (h3 _ _) (fun _ => ?_) (h1 l _ (ins_cons.mpr ⟨⟨trivial, hb⟩, h⟩)) (fun p hp => ?_)
          · mono
          · refine Safe.bind (mono_fill _ _) (fun _ => Mono.pure) (safe_fill hb hp.1) (fun _ _ => Safe.pure ⟨hb, hp.2⟩)
      · rename_i l
        refine Safe.bind Mono.alloc (fun b => Mono.bind (h4 _ _) (fun _ => ?_)) (Safe.alloc (ins_dictO.mpr (ins_nil.mpr trivial))) (fun b hb => ?_)
        · mono
        · refine Safe.bind (h4 _ _) (fun _ => ?_) (h2 l _ (ins_cons.mpr ⟨⟨trivial, hb⟩, h⟩)) (fun p hp => ?_)
          · mono
          · refine Safe.bind (mono_fill _ _) (fun _ => Mono.pure) (safe_fill hb (ins_dictO.mpr hp.1)) (fun _ _ => Safe.pure ⟨hb, hp.2⟩)
      · rename_i t l
        refine Safe.bind Mono.alloc (fun b => Mono.bind (h4 _ _) (fun _ => ?_)) (Safe.alloc (ins_inst.mpr (ins_nil.mpr trivial))) (fun b hb => ?_)
        · mono
        · refine Safe.bind (h4 _ _) (fun _ => ?_) (h2 l _ (ins_cons.mpr ⟨⟨trivial, hb⟩, h⟩)) (fun p hp => ?_)
          · mono
          · refine Safe.bind (mono_fill _ _) (fun _ => Mono.pure) (safe_fill hb (ins_inst.mpr hp.1)) (fun _ _ => Safe.pure ⟨hb, hp.2⟩)
  · rename_i hr
    refine Safe.pure ⟨?_, h⟩
    intro a ha
    exact absurd ha (hr a)

theorem safe_copy : ∀ (n : Nat) (m : Memo F) (r : Ref F), ins R m → Safe R (copy n m r)
  | 0, m, r, h => safe_copyStep (fun _ _ => Mono.raise) (fun _ _ _ => Safe.raise) m r h
  | n + 1, m, r, h => safe_copyStep (mono_copy n) (fun m x h => safe_copy n m x h) m r h

/-- a copy consists of new objects, whatever is copied -/
theorem safe_deepcopy (E : Env F) (r : Ref F) : Safe R (deepcopy E r) := by
  unfold deepcopy
  refine Safe.bind (mono_copy _ _ _) (fun _ => Mono.pure) (safe_copy _ _ _ (ins_nil.mpr trivial)) (fun p hp => ?_)
  exact Safe.pure hp.1
macro_rules | `(tactic| safe1) => `(tactic| with_reducible exact safe_deepcopy _ _)

theorem safe_deref {r : Ref F} (hr : ins R r) : Safe R (deref r) := by
  unfold deref
  split
  · refine Safe.bind Mono.look (fun _ => Mono.pure) (Safe.look (ins_ptr.mp hr)) (fun o ho => ?_)
    exact Safe.pure (ins_some.mpr ho)
  · exact Safe.pure (ins_none.mpr trivial)
macro_rules | `(tactic| safe1) => `(tactic| with_reducible refine safe_deref ?_)

theorem safe_read {α : Type} [Ins α] [Plain α] {f : Heap F → Option α} {e : Err} : Safe R (M.view f e) :=
  Safe.view (fun _ _ _ => Plain.all _ _)
theorem safe_lift {α : Type} [Ins α] [Plain α] {r : Except Err α} : Safe (F := F) R (M.lift r) :=
  Safe.lift (fun _ _ => Plain.all _ _)

theorem safe_truthy [PyRt F] (r : Ref F) : Safe R (truthy r) := by
  unfold truthy
  split
  all_goals first
    | exact Safe.pure trivial
    | (refine Safe.read_bind Reads.look (fun o => ?_); split <;> exact Safe.pure trivial)
macro_rules | `(tactic| safe1) => `(tactic| with_reducible exact safe_truthy _)

theorem safe_iter {r : Ref F} (hr : ins R r) : Safe R (iter r) := by
  unfold iter
  safe
  · intro x hx
    obtain ⟨c, _, rfl⟩ := List.mem_map.mp hx
    exact ins_strR.mpr trivial
  · intro x hx
    obtain ⟨c, _, rfl⟩ := List.mem_map.mp hx
    exact ins_strR.mpr trivial
macro_rules | `(tactic| safe1) => `(tactic| with_reducible refine safe_iter ?_)

end Steps

end Alias
end Spine
