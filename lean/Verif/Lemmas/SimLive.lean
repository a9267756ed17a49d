import Verif.Lemmas.SimOpen
import Verif.Spec.AliasValue
import Verif.Props.Alias
/-
What the heap holds for an editor depends only on the objects of the editor; one call against the value model.
-/
set_option linter.unusedSectionVars false
namespace Spine
namespace Alias
open M Editor
variable {F : Type} [PyRt F] {B : Nat} {N : Nat → Prop} {h : Heap F}

theorem readJ_same {h' : Heap F} {r : Ref F} (n : Nat) (hf : ∀ b, Reach h r b → h'[b]? = h[b]?) : readJ h' n r = readJ h n r := by
  unfold readJ
  rw [read_same n hf]

mutual
theorem Rep.move {h' : Heap F} {N' : Nat → Prop} : ∀ {t : Tree F} {r : Ref F} {S : Nat → Prop}, Rep B N h r t S →
    (∀ b, Reach h r b → h'[b]? = h[b]? ∧ (N' b ↔ N b)) → Rep B N' h' r t S
  | .leaf _, _, _, .leaf _ _ _ h1 h2, hf => .leaf _ _ _ (fun a ha => ((hf a (ha ▸ .here a)).2).mpr (h1 a ha)) (by rw [readJ_same _ (fun b hb => (hf b hb).1)]; exact h2)
  | .node .., _, _, .empty a _ h1 h2, hf => .empty _ _ ((hf a (.here a)).2.mpr h1) (by rw [(hf a (.here a)).1]; exact h2)
  | .node .., _, _, .node a k rs ts S S' h1 h2 h3 h4 h5, hf =>
    .node a k rs ts _ _ (by rw [(hf a (.here a)).1]; exact h1) h2 (fun hn => h3 ((hf a (.here a)).2.mp hn))
      (RepK.move h4 (fun p hp b hb => hf b (.there a _ p.2 b h1 (by rw [Kind.refs]; exact List.mem_map_of_mem hp) hb))) h5
theorem RepK.move {h' : Heap F} {N' : Nat → Prop} : ∀ {t : List (Str × Tree F)} {r : Dict (Ref F)} {S : Nat → Prop}, RepK B N h r t S →
    (∀ p ∈ r, ∀ b, Reach h p.2 b → h'[b]? = h[b]? ∧ (N' b ↔ N b)) → RepK B N' h' r t S
  | [], _, _, .nil _, _ => .nil _
  | _ :: _, _, _, .cons k r t rs ts S1 S2 S h1 h2 h3 h4 h5, hf =>
    .cons k r t rs ts S1 S2 S (Rep.move h1 (hf (k, r) (by simp))) (RepK.move h2 (fun p hp => hf p (by simp [hp]))) h3 h4 h5
end

theorem JOk.move {h' : Heap F} {N' : Nat → Prop} {r : Ref F} {j : JVal F} (hr : JOk B N h r j)
    (hf : ∀ b, Reach h r b → h'[b]? = h[b]? ∧ (N' b ↔ N b)) : JOk B N' h' r j :=
  ⟨fun a ha => ((hf a (ha ▸ .here a)).2).mpr (hr.1 a ha), by rw [readJ_same _ (fun b hb => (hf b hb).1)]; exact hr.2⟩

/-- **what the heap holds for an editor depends only on the objects of the editor and the class constants** -/
theorem Holds.move {E : Env F} {h' : Heap F} {N' : Nat → Prop} {e : Ed F} {v : Editor F} (hs : Holds B E N h e v)
    (hf : ∀ b, e.Reach h b → h'[b]? = h[b]? ∧ (N' b ↔ N b)) (hz : Zone N' h') (hc : Consts B E N' h') :
    Holds B E N' h' e v := by
  obtain ⟨Sd, Si, h1, h2, h3⟩ := hs.parts
  refine ⟨hz, hc, hs.skeleton.move (fun b hb => hf b (.inl hb)), hs.version, ⟨_, _, ?_, h2.bound.move (fun b hb => hf b (.inr (.inl hb))),
    h3.bound.move (fun b hb => hf b (.inr (.inr (.inl hb))))⟩, ?_⟩
  · exact fun a ha hb _ => h1 a ha.1 hb.1 ha.2
  · refine All₂.imp hs.graph (fun p q hp _ hr => ⟨hr.1, hr.2.id, hr.2.ntype, hr.2.children, hr.2.parents, hr.2.data.1, fun ht => ?_⟩)
    exact (hr.2.data.2 ht).move (fun b hb => hf b (.inr (.inr (.inr ⟨p, hp, hb⟩))))

/-! ### One call -/

theorem exec_run {E : Env F} {c : Call F} {e e' : Ed F} {h' : Heap F} {x : Except Err (Out (Ref F))} (hr : c.exec E e h = (.ok (x, e'), h')) :
    c.run E e h = (.ok (x.map Out.doc?, e'), h') := by
  have key : ∀ {α : Type} {m : M F (Except Err α × Ed F)} {f : α → Out (Ref F)} {g : α → Option (Ref F)}, (∀ y, (f y).doc? = g y) →
      (m >>= fun q => pure (q.1.map f, q.2)) h = (.ok (x, e'), h') → (m >>= fun q => pure (q.1.map g, q.2)) h = (.ok (x.map Out.doc?, e'), h') := by
    intro α m f g hfg hr
    cases hm : m h with
    | mk o h1 =>
      cases o with
      | error y => rw [run_fail hm] at hr; cases hr
      | ok q =>
        rw [run_bind hm] at hr ⊢
        obtain ⟨q1, q2⟩ := q
        cases q1 with
        | error z => cases hr; rfl
        | ok z =>
          cases hr
          simp only [Except.map, ← hfg]
          rfl
  have key2 : ∀ {α : Type} {m : M F (Except Err α)} {f : α → Out (Ref F)} {g : α → Option (Ref F)}, (∀ y, (f y).doc? = g y) →
      (m >>= fun q => pure (q.map f, e)) h = (.ok (x, e'), h') → (m >>= fun q => pure (q.map g, e)) h = (.ok (x.map Out.doc?, e'), h') := by
    intro α m f g hfg hr
    cases hm : m h with
    | mk o h1 =>
      cases o with
      | error y => rw [run_fail hm] at hr; cases hr
      | ok q =>
        rw [run_bind hm] at hr ⊢
        cases q with
        | error z => cases hr; rfl
        | ok z =>
          cases hr
          simp only [Except.map, ← hfg]
          rfl
  cases c with
  | eraseSkins n s => exact key (fun _ => rfl) hr
  | eraseAnims a t s => exact key (fun _ => rfl) hr
  | clean => exact key (fun _ => rfl) hr
  | scale a b => exact key2 (fun _ => rfl) hr
  | toJson => exact key2 (fun _ => rfl) hr

theorem inv_value (c : Call F) {v : Editor F} (hi : Inv v) : Inv (c.value v).2 := by
  cases c with
  | eraseSkins n s => exact inv_run (.eraseSkins n s) hi
  | eraseAnims a t s => exact inv_run (.eraseAnims a t s) hi
  | clean => exact inv_run .clean hi
  | scale a b => exact inv_run (.scale a b) hi
  | toJson => exact hi

theorem map_ne {α β : Type} {x : Except Err α} {f : α → β} {e : Err} (h : x.map f ≠ .error e) : x ≠ .error e := by
  rintro rfl
  exact h rfl

/-- **one call**: the outcome and the state are those of the value model -/
theorem exec_sim {E : Env F} (hm : 8 + B ≤ E.lim) (c : Call F) {e : Ed F} {v : Editor F} (hs : Holds B E N h e v) (hi : Inv v)
    (hne : (c.value v).1 ≠ .error .unmodelled) :
    ∃ x e' N' h', c.exec E e h = (.ok (x, e'), h') ∧ Ext N h Any N' h' ∧ Holds B E N' h' e' (c.value v).2 ∧
      x.map (Out.map (readJ h' E.lim)) = (c.value v).1.map (Out.map some) := by
  cases c with
  | eraseSkins n s =>
    obtain ⟨e', N', h', run, x, hs'⟩ := eraseSkins_sim hm n s hs hi (map_ne hne)
    refine ⟨_, e', N', h', (run_bind run).trans rfl, x, hs', ?_⟩
    simp only [Call.value]
    cases (Editor.eraseSkins n s v).1 <;> rfl
  | eraseAnims a t s =>
    obtain ⟨q, e', N', h', run, x, hs', hq⟩ := eraseAnims_sim hm a t s hs hi (map_ne hne)
    refine ⟨_, e', N', h', (run_bind run).trans rfl, x, hs', ?_⟩
    simp only [Call.value]
    cases hv : (Editor.eraseAnims a t s v).1 with
    | error y =>
      rw [hv] at hq
      cases q with
      | error z => cases hq; rfl
      | ok z => exact hq.elim
    | ok y =>
      rw [hv] at hq
      cases q with
      | error z => exact hq.elim
      | ok z =>
        obtain ⟨h1, h2⟩ := hq
        simp only [Except.map, Out.map, readJ_le h1.2 hm, h2]
  | clean =>
    obtain ⟨e', N', h', run, x, hs'⟩ := clean_sim hm hs hi (map_ne hne)
    refine ⟨_, e', N', h', (run_bind run).trans rfl, x, hs', ?_⟩
    simp only [Call.value]
    cases (Editor.clean v).1 <;> rfl
  | scale a b =>
    obtain ⟨N', h', run, x, hs'⟩ := scale_sim a b hs hi (map_ne hne)
    refine ⟨_, e, N', h', (run_bind (run_attempt run)).trans rfl, x, hs', ?_⟩
    simp only [Call.value]
    cases (Editor.scale a b v).1 <;> rfl
  | toJson =>
    obtain ⟨r, N', h', run, x, j, hs'⟩ := toJson_sim hm hs hi.fine.doc.data
    refine ⟨_, e, N', h', (run_bind (run_attempt run)).trans rfl, x.any, hs', ?_⟩
    simp only [Call.value, Except.map, Out.map, readJ_le j.2 hm]

/-! ### Programs -/

/-- the addresses of JSON values -/
def Readable (B : Nat) (h : Heap F) (a : Nat) : Prop := ∃ j, readJ h B (.ptr a) = some j

theorem zone_readable (B : Nat) (h : Heap F) : Zone (Readable B h) h := by
  constructor
  · rintro a ⟨j, hj⟩
    cases readJ_iff.mp hj with
    | list a l js ho h2 => exact (List.getElem?_eq_some_iff.mp ho).1
    | dict a l js ho h2 => exact (List.getElem?_eq_some_iff.mp ho).1
  · rintro a o ⟨j, hj⟩ ho s hs b rfl
    cases readJ_iff.mp hj with
    | list a l js ho' h2 =>
      rw [ho'] at ho
      cases ho
      obtain ⟨y, _, hy⟩ := h2.left hs
      exact ⟨y, readJ_of_below hy⟩
    | dict a l js ho' h2 =>
      rw [ho'] at ho
      cases ho
      obtain ⟨p, hp, hb⟩ := List.mem_map.mp hs
      obtain ⟨y, _, hy⟩ := h2.left hp
      exact ⟨y.2, hb ▸ readJ_of_below hy.2⟩

theorem jok_readable {r : Ref F} {j : JVal F} (hr : readJ h B r = some j) : JOk B (Readable B h) h r j :=
  ⟨fun _ ha => ⟨j, ha ▸ hr⟩, hr⟩

theorem docApart_of {r : Ref F} (hs : SkinsApart h r) : DocApart h r := by
  rintro a d w rfl ho hw b l rfl hl s hsl c m x rfl hm hx y z rfl hz
  refine hs d l (.ptr c) m z (by simp [dictIn, ho]) ?_ hsl (by simp [dictIn, hm]) ?_
  · rw [hw]; simp [listIn, hl]
  · rw [hx]; simp [dictIn, hz]

/-- the address of a part of a class constant -/
def ConstReach (E : Env F) (h : Heap F) (a : Nat) : Prop := ∃ v t, Reach h (E.consts v t) a

theorem live_move {E : Env F} {w : World F} {e : Ed F} {v : Editor F} (hw : w.Apart) (hx : w.Fixed B E) (he : e ∈ w.eds)
    (hf : ∀ b, e.Reach h b → w.heap[b]? = h[b]?) (hs : Holds B E N h e v) : ∃ N', Holds B E N' w.heap e v := by
  have hown : ∀ a, ConstReach E w.heap a → w.Owns a := fun a ⟨v, t, h1⟩ => ⟨_, (hx v t).1, h1⟩
  have key := ed_reach_same hf
  have hz : Zone (fun a => (N a ∧ e.Reach h a) ∨ ConstReach E w.heap a) w.heap := by
    constructor
    · rintro a (⟨_, ha⟩ | ha)
      · exact hw.sound e he a ((key a).mpr ha)
      · exact hw.own a (hown a ha)
    · rintro a o (⟨hn, ha⟩ | ⟨v, t, ha⟩) ho s hs' b rfl
      · rw [hf a ha] at ho
        exact .inl ⟨hs.zone.closed a o hn ho _ hs' b rfl, closed_ed_reach a o ha ho _ hs' b rfl⟩
      · exact .inr ⟨v, t, reach_trans ha ho hs' (.here b)⟩
  refine ⟨_, hs.move (fun b hb => ⟨hf b hb, ?_⟩) hz ?_⟩
  · constructor
    · rintro (h1 | h1)
      · exact h1.1
      · exact absurd (hown b h1) (hw.caller e he b ((key b).mpr hb))
    · exact fun h1 => .inl ⟨h1, hb⟩
  · exact fun v t => ⟨fun a ha => .inr ⟨v, t, ha ▸ .here a⟩, (hx v t).2⟩

/-- the editors of the program and their values -/
structure Tied (B : Nat) (E : Env F) (w : World F) (vs : List (Editor F)) : Prop where
  apart : w.Apart
  fixed : w.Fixed B E
  eds : All₂ (fun e v => Inv v ∧ ∃ N, Holds B E N w.heap e v) w.eds vs

theorem fixed_keep {E : Env F} {w w' : World F} (hw : w.Apart) (hx : w.Fixed B E) (hs : World.Open E w w' ∨ ∃ i, World.Calls E i w w')
    (hr : ∀ r ∈ w.roots, r ∈ w'.roots) : w'.Fixed B E := by
  intro v t
  refine ⟨hr _ (hx v t).1, ?_⟩
  unfold readJ
  rw [c79_documents hw hs (E.consts v t) (fun a ha => ⟨_, (hx v t).1, by rw [ha]; exact .here a⟩)]
  exact (hx v t).2

theorem all₂_get? {α β : Type} {R : α → β → Prop} {l : List α} {m : List β} (h : All₂ R l m) (i : Nat) :
    (l[i]? = none ∧ m[i]? = none) ∨ ∃ x y, l[i]? = some x ∧ m[i]? = some y ∧ R x y := by
  induction h generalizing i with
  | nil => exact .inl ⟨rfl, rfl⟩
  | cons h1 _ ih =>
    cases i with
    | zero => exact .inr ⟨_, _, rfl, rfl, h1⟩
    | succ i => simpa using ih i

theorem all₂_of_get? {α β : Type} {R : α → β → Prop} : ∀ {l : List α} {m : List β}, l.length = m.length →
    (∀ (i : Nat) x y, l[i]? = some x → m[i]? = some y → R x y) → All₂ R l m
  | [], [], _, _ => .nil
  | [], _ :: _, h, _ => by simp at h
  | _ :: _, [], h, _ => by simp at h
  | x :: l, y :: m, hl, h => .cons (h 0 x y rfl rfl) (all₂_of_get? (by simpa using hl) (fun i a b ha hb => h (i + 1) a b ha hb))

theorem all₂_append {α β : Type} {R : α → β → Prop} {l l' : List α} {m m' : List β} (h : All₂ R l m) (h' : All₂ R l' m') : All₂ R (l ++ l') (m ++ m') := by
  induction h with
  | nil => exact h'
  | cons h1 _ ih => exact .cons h1 ih

theorem tied_own {E : Env F} {w w' : World F} {vs : List (Editor F)} (ht : Tied B E w vs) (hs : World.Own w w') (hx : w'.Fixed B E) : Tied B E w' vs := by
  have ha := World.apart_own ht.apart hs
  refine ⟨ha, hx, ?_⟩
  have h1 := World.own_spec hs
  rw [h1.1]
  refine all₂_of_get? ht.eds.length (fun i e v he hv => ?_)
  rcases all₂_get? ht.eds i with ⟨h2, _⟩ | ⟨e', v', h2, h3, hi, N, hh⟩
  · rw [h2] at he; cases he
  · rw [he] at h2
    rw [hv] at h3
    cases h2
    cases h3
    have hm := List.mem_of_getElem? he
    exact ⟨hi, live_move ha hx (h1.1 ▸ hm) (fun a hr => h1.2.2.1 a (ht.apart.sound e hm a hr) (ht.apart.caller e hm a hr)) hh⟩

theorem tied_eds {E : Env F} {w w' : World F} {vs : List (Editor F)} (ht : Tied B E w vs) (ha : w'.Apart) (hx : w'.Fixed B E)
    (hk : ∀ e ∈ w.eds, e ∈ w'.eds ∧ ∀ a, e.Reach w.heap a → w'.heap[a]? = w.heap[a]?) :
    All₂ (fun e v => Inv v ∧ ∃ N, Holds B E N w'.heap e v) w.eds vs :=
  ht.eds.imp (fun e _ he _ ⟨hi, _, hh⟩ => ⟨hi, live_move ha hx (hk e he).1 (hk e he).2 hh⟩)

/-- opening an editor -/
theorem tied_open {E : Env F} (hm : 8 + B ≤ E.lim) {w : World F} {vs : List (Editor F)} (ht : Tied B E w vs) {doc : Ref F} {v : JVal F} (hd : w.Holds doc)
    (hr : readJ w.heap B doc = some v) (hp : v.Proper) (hs : SkinsApart w.heap doc) {x : Except Err (Ed F)} {h' : Heap F} (hi : init E doc w.heap = (x, h')) :
    match Editor.load v with
    | .ok v' => ∃ e, x = .ok e ∧ Tied B E { w with heap := h', eds := w.eds ++ [e] } (vs ++ [v'])
    | .error .unmodelled => True
    | .error y => x = .error y ∧ Tied B E { w with heap := h' } vs := by
  have hsim := init_sim hm (zone_readable B w.heap) (fun v t => jok_readable (ht.fixed v t).2) (jok_readable hr) hp (docApart_of hs)
  have hspec := init_spec hi
  cases hv : Editor.load v with
  | ok v' =>
    rw [hv] at hsim
    obtain ⟨e, N', h1, run, _, hh⟩ := hsim.of_ok
    rw [hi] at run
    cases run
    have hstep : World.Open E w { w with heap := h', eds := w.eds ++ [e] } := .opened w doc e h' hd hi
    have ha := World.apart_open ht.apart hstep
    have hx := fixed_keep ht.apart ht.fixed (.inl hstep) (fun _ h => h)
    refine ⟨e, rfl, ha, hx, ?_⟩
    refine all₂_append (tied_eds ht ha hx (fun f hf => ⟨by simp [hf], fun a hr => hspec.2.1 a (ht.apart.sound f hf a hr)⟩)) (.cons ?_ .nil)
    exact ⟨inv_load hp hv, N', hh⟩
  | error y =>
    have key : y ≠ .unmodelled → x = .error y ∧ Tied B E { w with heap := h' } vs := by
      intro hy
      rw [hv] at hsim
      obtain ⟨N', h1, run, _⟩ := hsim.of_error hy
      rw [hi] at run
      cases run
      have hstep : World.Open E w { w with heap := h' } := .failed w doc y h' hd hi
      have ha := World.apart_open ht.apart hstep
      have hx := fixed_keep ht.apart ht.fixed (.inl hstep) (fun _ h => h)
      exact ⟨rfl, ha, hx, tied_eds (w := w) (w' := { w with heap := h' }) ht ha hx (fun f hf => ⟨hf, fun a hr => hspec.2.1 a (ht.apart.sound f hf a hr)⟩)⟩
    cases y <;> first | trivial | exact key (by simp)

/-- a call -/
theorem tied_call {E : Env F} (hm : 8 + B ≤ E.lim) {w : World F} {vs : List (Editor F)} (ht : Tied B E w vs) {i : Nat} {e e' : Ed F} {c : Call F}
    {x : Except Err (Out (Ref F))} {h' : Heap F} (he : w.eds[i]? = some e) (hr : c.exec E e w.heap = (.ok (x, e'), h')) {l : List (Ref F)}
    (hl : l = (match x with | .ok o => o.doc?.toList | .error _ => [])) :
    ∃ v, vs[i]? = some v ∧ ((c.value v).1 = .error .unmodelled ∨ (x.map (Out.map (readJ h' E.lim)) = (c.value v).1.map (Out.map some) ∧
      Tied B E { heap := h', eds := w.eds.set i e', roots := l ++ w.roots } (vs.set i (c.value v).2))) := by
  rcases all₂_get? ht.eds i with ⟨h2, _⟩ | ⟨f, v, h2, h3, hi, N, hh⟩
  · rw [h2] at he; cases he
  rw [he] at h2
  cases h2
  refine ⟨v, h3, ?_⟩
  by_cases hne : (c.value v).1 = .error .unmodelled
  · exact .inl hne
  refine .inr ?_
  obtain ⟨x', e2, N', h2', run, _, hh', hout⟩ := exec_sim hm c hh hi hne
  rw [hr] at run
  cases run
  refine ⟨hout, ?_⟩
  have hstep : World.Calls E i w { heap := h', eds := w.eds.set i e', roots := l ++ w.roots } := by
    have := exec_run hr
    cases x with
    | ok o => rw [hl]; exact .returned w e c _ e' h' he this
    | error y => rw [hl]; exact .raised w e c _ e' h' he this
  have ha := World.apart_calls ht.apart hstep
  have hx := fixed_keep ht.apart ht.fixed (.inr ⟨i, hstep⟩) (fun r hr => List.mem_append_right _ hr)
  refine ⟨ha, hx, ?_⟩
  refine all₂_of_get? (by simp [ht.eds.length]) (fun j f u hf hu => ?_)
  by_cases hij : j = i
  · subst hij
    have hlt : j < w.eds.length := (List.getElem?_eq_some_iff.mp he).1
    have hlt' : j < vs.length := (List.getElem?_eq_some_iff.mp h3).1
    simp only [List.getElem?_set_self hlt] at hf
    rw [List.getElem?_set_self hlt'] at hu
    cases hf
    cases hu
    exact ⟨inv_value c hi, N', hh'⟩
  · simp only [List.getElem?_set_ne (Ne.symm hij)] at hf
    rw [List.getElem?_set_ne (Ne.symm hij)] at hu
    rcases all₂_get? ht.eds j with ⟨h4, _⟩ | ⟨f', u', h4, h5, hi2, N2, hh2⟩
    · rw [h4] at hf; cases hf
    · rw [hf] at h4
      rw [hu] at h5
      cases h4
      cases h5
      refine ⟨hi2, live_move ha hx ?_ (World.calls_other ht.apart hstep hij hf) hh2⟩
      exact List.mem_of_getElem? (i := j) (by simp only [List.getElem?_set_ne (Ne.symm hij)]; exact hf)

/-- **programs** -/
theorem trace_accounts {E : Env F} (hm : 8 + B ≤ E.lim) {w w' : World F} {l : List (Event F)} (hs : World.Trace B E w l w') :
    ∀ {vs : List (Editor F)}, Tied B E w vs → accounts vs l := by
  induction hs with
  | nil => exact fun _ => trivial
  | own w w1 w2 l h1 h2 _ ih => exact fun ht => ih (tied_own ht h1 h2)
  | opened w w2 l doc v e h1 h2 h3 h4 h5 h6 _ ih =>
    intro vs ht
    have := tied_open hm ht h2 h3 h4 h5 h6
    unfold accounts
    cases hv : Editor.load v with
    | ok v' =>
      rw [hv] at this
      obtain ⟨_, h7, h8⟩ := this
      cases h7
      exact ⟨rfl, ih h8⟩
    | error y =>
      rw [hv] at this
      cases y <;> first | trivial | exact nomatch this.1
  | failed w w2 l doc v x h1 h2 h3 h4 h5 h6 _ ih =>
    intro vs ht
    have := tied_open hm ht h2 h3 h4 h5 h6
    unfold accounts
    cases hv : Editor.load v with
    | ok v' =>
      rw [hv] at this
      obtain ⟨_, h7, _⟩ := this
      cases h7
    | error y =>
      rw [hv] at this
      cases y <;> first | trivial | exact ⟨by rw [Except.error.inj this.1], ih this.2⟩
  | returned w w2 l i e c o e' h1 h2 h3 _ ih =>
    intro vs ht
    obtain ⟨v, h4, h5⟩ := tied_call hm ht h2 h3 (l := o.doc?.toList) rfl
    unfold accounts
    rw [h4]
    exact h5.imp id (fun h6 => ⟨h6.1, ih h6.2⟩)
  | raised w w2 l i e c x e' h1 h2 h3 _ ih =>
    intro vs ht
    obtain ⟨v, h4, h5⟩ := tied_call hm ht h2 h3 (l := []) rfl
    unfold accounts
    rw [h4]
    exact h5.imp id (fun h6 => ⟨h6.1, ih h6.2⟩)

end Alias
end Spine
