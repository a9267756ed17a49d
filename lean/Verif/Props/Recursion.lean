import Verif.Lemmas.RecursionDoc
import Verif.Lemmas.SampleRan
import Verif.Props.Clean
import Verif.Props.GraphQueries
/-
C67: the recursion limit of the interpreter.  The searches of the graph call themselves once per node of a chain.  The outcome of a
call depends on the limit only by RecursionError, which never happens when the limit exceeds the longest chain of the
graph, and always happens for skeletons whose bones form a longer chain.
-/
set_option linter.unusedSectionVars false
set_option linter.unusedSimpArgs false
namespace Spine
open JVal Graph Container

/-! ## Graph queries -/
section Queries
variable {T D : Type} [DecidableEq T]

/-- C67: under any limit, the heads and tails of a graph are those without limit, or the query raises RecursionError; with a limit
above the length of every chain of edges it does not raise.  For all graphs built by API calls. -/
theorem c67_heads_tails_partial (fac : Factory T) (ops : List (Graph.Op T D)) (lim : Nat) :
    Lim (headsL lim (run fac ops)) (heads (run fac ops)) ∧ Lim (tailsL lim (run fac ops)) (tails (run fac ops)) ∧
    (Shallow lim (run fac ops) → headsL lim (run fac ops) = heads (run fac ops) ∧ tailsL lim (run fac ops) = tails (run fac ops)) ∧
    ((run fac ops).nodes.length < lim → Shallow lim (run fac ops)) := by
  have hg := wf_run fac ops
  exact ⟨getNodesByL_or hg.closed_parents lim, getNodesByL_or hg.closed_children lim,
    fun h => ⟨headsL_shallow hg h, tailsL_shallow hg h⟩, shallow_nodes _⟩

/-- C67: the same for validation and the order of execution, with a limit above the number of nodes. -/
theorem c67_validate_order_partial (fac : Factory T) (ops : List (Graph.Op T D)) (root : T) (lim : Nat) :
    Lim (validateL lim root (run fac ops)) (validate root (run fac ops)) ∧ Lim (seqOrderL lim (run fac ops)) (seqOrder (run fac ops)) ∧
    ((run fac ops).nodes.length < lim → validateL lim root (run fac ops) = validate root (run fac ops) ∧
      seqOrderL lim (run fac ops) = seqOrder (run fac ops)) := by
  have hg := wf_run fac ops
  obtain ⟨cs, us, _, _, h3, -⟩ := validate_spec root hg
  obtain ⟨hs, w, _, _, h4, -⟩ := seqOrder_ok hg
  have a := lim_of (fun l => validateL l root (run fac ops)) ((run fac ops).nodes.length + 1) (fun f k => validateL_lim root _ f k)
    (by rw [validateL_enough, h3]; simp) lim
  have b := lim_of (fun l => seqOrderL l (run fac ops)) ((run fac ops).nodes.length + 1) (fun f k => seqOrderL_lim _ f k)
    (by rw [seqOrderL_enough, h4]; simp) lim
  simp only [validateL_enough, seqOrderL_enough] at a b
  exact ⟨a.1, b.1, fun h => ⟨a.2 h, b.2 h⟩⟩

/-- a chain of `k + 1` nodes, parents first -/
def chainOps (k : Nat) : List (Graph.Op Nat Nat) :=
  (List.range (k + 1)).map (fun i => .addNode (.str (natStr i)) 0 0) ++ (List.range k).map (fun i => .addEdge (natStr i) (natStr (i + 1)))

-- 6 nodes in a row: the tails need 6 nested calls, the heads 2
example : tailsL 5 (run defaultFactory (chainOps 5)) = .error .diverge ∧ tailsL 6 (run defaultFactory (chainOps 5)) = .ok [s!!"5"] ∧
    headsL 2 (run defaultFactory (chainOps 5)) = .ok [s!!"0"] ∧ headsL 1 (run defaultFactory (chainOps 5)) = .error .diverge ∧
    validateL 5 0 (run defaultFactory (chainOps 5)) = .error .diverge ∧ validateL 6 0 (run defaultFactory (chainOps 5)) = .ok [] ∧
    seqOrderL 5 (run defaultFactory (chainOps 5)) = .error .diverge ∧
    seqOrderL 6 (run defaultFactory (chainOps 5)) = .ok [s!!"0", s!!"1", s!!"2", s!!"3", s!!"4", s!!"5"] := by
  decide +kernel

end Queries

/-! ## The editor -/
variable {F : Type} [PyRt F]
namespace Editor
variable {e : Editor F}

/-- C67: under any limit an editing call does what it does without limit, or raises RecursionError. -/
theorem c67_calls_partial (hr : Reached e) (o : Op F) (lim : Nat) : LimR (o.runL lim e) (o.run e) := runL_lim hr.core lim o

/-- the graph that the searches of a call run through: `erase_skins` builds a new one -/
def Op.Searches (o : Op F) (e : Editor F) (g : SGraph F) : Prop :=
  match o with
  | .eraseSkins n _ => SpineNodes.create (e.withData (removeSkins n e.data).2).toJson = .ok g
  | .eraseAnims _ _ _ => g = e.graph
  | .clean => g = e.graph
  | .scale _ _ => False

/-- C67: a limit above the length of every chain of edges of the graph is enough. -/
theorem c67_shallow_partial (hr : Reached e) (o : Op F) (lim : Nat) (hs : ∀ g, o.Searches e g → Shallow lim g) :
    o.runL lim e = o.run e := by
  cases o with
  | eraseSkins n s => simp only [Op.runL, Op.run, eraseSkinsL_shallow hr.core n s hs]
  | eraseAnims a t s => simp only [Op.runL, Op.run, eraseAnimsL_shallow hr.core (hs _ rfl) a t s]
  | clean => simp only [Op.runL, Op.run, cleanL_shallow hr.core (hs _ rfl)]
  | scale x y => rfl

/-- C67: for a document without ik constraints, in which no bone is called "None", a limit of 4 more than the longest chain of
bones is enough. -/
theorem c67_short_bones_partial {doc : JVal F} (hp : doc.Proper) (h : load doc = .ok e) (h0 : e.data.ik = [])
    (hnone : ∀ b ∈ e.data.bones, b.name ≠ s!!"None") (N lim : Nat) (hN : ∀ l, e.data.BoneChain l → l.length ≤ N) (hl : N + 4 ≤ lim) :
    cleanL lim e = clean e :=
  cleanL_shallow (ecore_load h) (fun l h1 h2 h3 => Nat.lt_of_lt_of_le (shallow_bones hp h h0 hnone hN l h1 h2 h3) hl)

/-- C67: a chain of bones from the first bone that is longer than the limit: cleaning raises RecursionError, although it would
succeed without limit. -/
theorem c67_long_bones {doc : JVal F} (hp : doc.Proper) (h : load doc = .ok e) (h0 : e.data.ik = []) {r : Bone F} {l rest : List (Bone F)}
    (hc : e.data.BoneChain (r :: l)) (hr : e.data.bones = r :: rest) (lim : Nat) (hl : lim < (r :: l).length)
    {v : List Str × List Str} (hok : (clean e).1 = .ok v) : (cleanL lim e).1 = .error .diverge :=
  clean_chain hp h h0 hc hr (Nat.le_of_lt_succ hl) hok

end Editor

/-! ## Documents that hit any given limit -/
namespace Ladder
open Editor
open Sample (J)

/-- the name of bone number `i` -/
def nm (i : Nat) : Str := List.replicate (i + 1) 'b'

/-- bones number `n + 1` to `n + k`, each the parent of the next -/
def rungs : Nat → Nat → List J
  | _, 0 => []
  | n, k + 1 => .dict [(s!!"name", .str (nm (n + 1))), (s!!"parent", .str (nm n))] :: rungs (n + 1) k

/-- a 3.8 document of `k + 1` bones in a row and nothing else -/
def bones (k : Nat) : List J := .dict [(s!!"name", .str (nm 0))] :: rungs 0 k

def doc (k : Nat) : J := .dict [(s!!"skeleton", .dict [(s!!"spine", .str s!!"3.8.75")]), (s!!"bones", .list (bones k)), (s!!"slots", .list []),
  (s!!"skins", .list [])]

inductive Steps : Nat → List (Bone Rat) → Prop
  | nil (n : Nat) : Steps n []
  | cons {n : Nat} {b : Bone Rat} {l : List (Bone Rat)} : b.name = nm (n + 1) → b.parent = some (nm n) → Bone.Good b →
      Steps (n + 1) l → Steps n (b :: l)

theorem rungs_init (k : Nat) : ∀ n, ∃ bs, mapE Bone.init (rungs n k) = .ok bs ∧ Steps n bs ∧ bs.length = k := by
  induction k with
  | zero => intro n; exact ⟨[], rfl, .nil n, rfl⟩
  | succ k ih =>
    intro n
    obtain ⟨bs, h1, h2, h3⟩ := ih (n + 1)
    have : ∃ b : Bone Rat, Bone.init (.dict [(s!!"name", .str (nm (n + 1))), (s!!"parent", .str (nm n))]) = .ok b ∧
        b.name = nm (n + 1) ∧ b.parent = some (nm n) := ⟨_, rfl, rfl, rfl⟩
    obtain ⟨b, e1, e2, e3⟩ := this
    exact ⟨b :: bs, by simp only [rungs, mapE, e1, h1], .cons e2 e3 (Bone.good_init e1) h2, by simp [h3]⟩

theorem nm_inj {i j : Nat} (h : nm i = nm j) : i = j := by
  have := congrArg List.length h
  simpa [nm] using this

theorem Steps.above {n : Nat} {l : List (Bone Rat)} (h : Steps n l) : ∀ b ∈ l, ∃ j, n < j ∧ b.name = nm j ∧ b.parent = some (nm (j - 1)) := by
  induction h with
  | nil => intro b hb; cases hb
  | cons h1 h2 _ _ ih =>
    intro b hb
    rcases List.mem_cons.1 hb with rfl | hb
    · exact ⟨_, Nat.lt_succ_self _, h1, h2⟩
    · obtain ⟨j, hj, e⟩ := ih b hb; exact ⟨j, by omega, e⟩

theorem Steps.nodup {n : Nat} {l : List (Bone Rat)} (h : Steps n l) : (l.map (·.name)).Nodup := by
  induction h with
  | nil => exact List.nodup_nil
  | cons h1 _ _ h4 ih =>
    refine List.nodup_cons.2 ⟨?_, ih⟩
    intro hm
    obtain ⟨c, hc, e⟩ := List.mem_map.1 hm
    obtain ⟨j, hj, e', _⟩ := h4.above c hc
    have := nm_inj (e'.symm.trans (e.trans h1))
    omega

theorem Steps.good {n : Nat} {l : List (Bone Rat)} (h : Steps n l) : ∀ b ∈ l, Bone.Good b := by
  induction h with
  | nil => intro b hb; cases hb
  | cons _ _ h3 _ ih =>
    intro b hb
    rcases List.mem_cons.1 hb with rfl | hb
    · exact h3
    · exact ih b hb

theorem Steps.map {n : Nat} {l : List (Bone Rat)} (h : Steps n l) (v : Bool) : Steps n (l.map (·.setDefaults v)) := by
  induction h with
  | nil => exact .nil _
  | cons h1 h2 h3 _ ih => exact .cons h1 h2 (Bone.good_setDefaults v h3) ih

theorem Steps.chain {a : AnimData Rat} {n : Nat} {l : List (Bone Rat)} (h : Steps n l) : ∀ (pre : List (Bone Rat)) (b : Bone Rat),
    a.bones = pre ++ b :: l → b.name = nm n → a.BoneChain (b :: l) := by
  induction h with
  | nil => intro pre b h _; exact .single (by rw [h]; simp)
  | @cons n c l h1 h2 _ _ ih =>
    intro pre b hb hn
    refine .cons (pre := pre ++ [b]) (post := l) (by rw [hb]; simp) (by simp) (by rw [h2, hn]) (ih (pre ++ [b]) c (by rw [hb]; simp) h1)

theorem mapE_map_ok {α β γ : Type} {f : β → Except Err γ} {g : α → β} {h : α → γ} (l : List α) (hl : ∀ x ∈ l, f (g x) = .ok (h x)) :
    mapE f (l.map g) = .ok (l.map h) := by
  induction l with
  | nil => rfl
  | cons a l ih =>
    simp only [List.map_cons, mapE, hl a (by simp), ih (fun x hx => hl x (by simp [hx]))]

/-- reading a document of bones only -/
theorem read_bones {s : SpineDoc Rat} (h1 : s.data.bones ≠ []) (hg : ∀ b ∈ s.data.bones, Bone.Good b) (h2 : s.data.slots = [])
    (h3 : s.data.ik = []) : GShape.read s.toJson = .ok
      ⟨s.data.bones.map (fun b => ⟨b.name, b.parent.getD s!!"None", b.toJson s.version.is38⟩), [], []⟩ := by
  obtain ⟨d, e, g1, g2, g3, g4⟩ := GShape.get?_doc s
  rw [if_neg h1] at g1
  rw [if_pos h2] at g2
  rw [if_pos h3] at g3
  have hm : mapE GShape.readBone (s.data.bones.map (·.toJson s.version.is38)) =
      .ok (s.data.bones.map (fun b => ⟨b.name, b.parent.getD s!!"None", b.toJson s.version.is38⟩)) :=
    mapE_map_ok _ (fun b hb => GShape.readBone_toJson _ b (hg b hb))
  rw [e]
  unfold GShape.read
  have e1 : subscript (.dict d) s!!"bones" = .ok (.list (s.data.bones.map (·.toJson s.version.is38)) : J) := by
    simp only [subscript, getItem, g1]
  have e2 : SpineNodes.docList (.dict d : J) s!!"slots" = .ok [] := by simp only [SpineNodes.docList, getIter, g2]
  have e3 : SpineNodes.docList (.dict d : J) s!!"ik" = .ok [] := by simp only [SpineNodes.docList, getIter, g3]
  rw [e1, e2, e3]
  simp only [iter, Bind.bind, Except.bind, hm, mapE]
  rfl

theorem doc_init (k : Nat) : ∃ (s : SpineDoc Rat) (r : Bone Rat) (l : List (Bone Rat)), SpineDoc.load (doc k) = .ok s ∧
    s.data = { bones := r :: l, slots := [], skins := [], events := [], ik := [], transform := [], path := [], animations := [] } ∧
    r.name = nm 0 ∧ r.parent = none ∧ Bone.Good r ∧ Steps 0 l ∧ l.length = k := by
  obtain ⟨bs, h1, h2, h3⟩ := rungs_init k 0
  have : ∃ r : Bone Rat, Bone.init (.dict [(s!!"name", .str (nm 0))]) = .ok r ∧ r.name = nm 0 ∧ r.parent = none := ⟨_, rfl, rfl, rfl⟩
  obtain ⟨r, e1, e2, e3⟩ := this
  have hm : mapE Bone.init (bones k) = .ok (r :: bs) := by simp only [bones, mapE, e1, h1]
  have ha : AnimData.init [(s!!"skeleton", .dict [(s!!"spine", .str s!!"3.8.75")]), (s!!"bones", .list (bones k)), (s!!"slots", .list []),
      (s!!"skins", .list [])] = .ok ⟨r :: bs, [], [], [], [], [], [], []⟩ := by
    show (mapE Bone.init (bones k)).bind _ = _
    rw [hm]
    rfl
  obtain ⟨v, hv⟩ : ∃ v, Version.mk? Rat s!!"3.8.75" = .ok v := ⟨_, rfl⟩
  refine ⟨⟨[(s!!"spine", .str s!!"3.8.75")], v, AnimData.setDefaults v.is38 ⟨r :: bs, [], [], [], [], [], [], []⟩⟩, r.setDefaults v.is38, bs.map (·.setDefaults v.is38),
    ?_, ?_, ?_, ?_, Bone.good_setDefaults _ (Bone.good_init e1), h2.map _, ?_⟩
  · unfold SpineDoc.load doc
    simp only [getItem, Dict.get?, Bind.bind, Except.bind, if_true, hv, ha]
    rfl
  · rfl
  · exact e2
  · exact e3
  · simp [h3]

theorem names_nodup {r : Bone Rat} {l : List (Bone Rat)} (h3 : r.name = nm 0) (h6 : Steps 0 l) : ((r :: l).map (·.name)).Nodup := by
  refine List.nodup_cons.2 ⟨?_, h6.nodup⟩
  intro hm
  obtain ⟨c, hc, e⟩ := List.mem_map.1 hm
  obtain ⟨j, hj, e', _⟩ := h6.above c hc
  have := nm_inj (e'.symm.trans (e.trans h3))
  omega

theorem proper_rungs (k : Nat) : ∀ n, ∀ v ∈ rungs n k, v.Proper := by
  induction k with
  | zero => intro n v hv; cases hv
  | succ k ih =>
    intro n v hv
    rcases List.mem_cons.1 hv with rfl | hv
    · refine .dict (by simp [Dict.keys]) ?_
      intro p hp
      simp only [List.mem_cons, List.not_mem_nil, or_false] at hp
      rcases hp with rfl | rfl <;> exact .str _
    · exact ih _ v hv

theorem proper (k : Nat) : (doc k).Proper := by
  refine .dict (by simp [Dict.keys]) ?_
  intro p hp
  simp only [List.mem_cons, List.not_mem_nil, or_false] at hp
  rcases hp with rfl | rfl | rfl | rfl
  · exact JVal.proper_of _ (by decide +kernel)
  · refine .list ?_
    intro v hv
    rcases List.mem_cons.1 hv with rfl | hv
    · refine .dict (by simp [Dict.keys]) ?_
      intro p hp
      simp only [List.mem_cons, List.not_mem_nil, or_false] at hp
      subst hp
      exact .str _
    · exact proper_rungs k 0 v hv
  · exact .list (by intro v hv; cases hv)
  · exact .list (by intro v hv; cases hv)

theorem loads (k : Nat) : ∃ (e : Editor Rat) (r : Bone Rat) (l : List (Bone Rat)), load (doc k) = .ok e ∧
    e.data = { bones := r :: l, slots := [], skins := [], events := [], ik := [], transform := [], path := [], animations := [] } ∧
    r.name = nm 0 ∧ r.parent = none ∧ Steps 0 l ∧ l.length = k := by
  obtain ⟨s, r, l, h1, h2, h3, h4, h5, h6, h7⟩ := doc_init k
  have hb : s.data.bones = r :: l := by rw [h2]
  have hrd := read_bones (s := s) (by rw [hb]; simp)
    (by rw [hb]; intro b hb'; rcases List.mem_cons.1 hb' with rfl | hb'; exact h5; exact h6.good b hb') (by rw [h2]) (by rw [h2])
  have hok : GShape.Ok (⟨s.data.bones.map (fun b => ⟨b.name, b.parent.getD s!!"None", b.toJson s.version.is38⟩), [], []⟩ : GShape Rat) := by
    refine ⟨?_, List.nodup_nil, List.nodup_nil, ?_⟩
    · rw [hb]
      simp only [List.map_map, List.map_cons, Function.comp_def]
      exact names_nodup h3 h6
    · intro b hb'
      rw [hb] at hb'
      obtain ⟨x, hx, rfl⟩ := List.mem_map.1 hb'
      rcases List.mem_cons.1 hx with rfl | hx
      · simp only [h3, h4]; decide
      · obtain ⟨j, hj, e1, e2⟩ := h6.above x hx
        simp only [e1, e2, Option.getD_some]
        intro h
        have := nm_inj h
        omega
  obtain ⟨g, hg, _⟩ := GShape.create_ok hrd hok
  refine ⟨⟨s, [], g⟩, r, l, ?_, h2, h3, h4, h6, h7⟩
  unfold load
  rw [h1]
  have : imagesReferences s = .ok [] := by unfold imagesReferences; rw [h2]; rfl
  simp only [this, hg]

/-- C67 fails: for every limit there is a document (a skeleton whose bones form a chain) that loads, that is cleaned without limit,
and on which `clean_animation` raises RecursionError. -/
theorem _root_.Spine.Editor.c67_counterexample (lim : Nat) : ∃ (d : J) (e : Editor Rat), d.Proper ∧ load d = .ok e ∧ Ran e ∧
    (∃ v, (clean e).1 = .ok v) ∧ (cleanL lim e).1 = .error .diverge := by
  obtain ⟨e, r, l, h1, h2, h3, h4, h5, h6⟩ := loads lim
  have hran : Ran e := .load (proper lim) h1 (AnimData.namesOk_of (by rw [h2]; rfl))
  have hok : ∃ v, (clean e).1 = .ok v := by
    cases hc : (clean e).1 with
    | ok v => exact ⟨v, rfl⟩
    | error x =>
      exfalso
      have := (c55_fails_iff_partial hran).1 ⟨x, hc⟩
      rw [h2] at this
      rcases this with ⟨h, _⟩ | ⟨h, _⟩ | ⟨h, _⟩ | ⟨h, _⟩ <;> cases h
  obtain ⟨v, hv⟩ := hok
  have hb : e.data.bones = r :: l := by rw [h2]
  exact ⟨doc lim, e, proper lim, h1, hran, ⟨v, hv⟩,
    c67_long_bones (proper lim) h1 (by rw [h2]) (h5.chain [] r (by rw [hb]; rfl) h3) hb lim (by simp [h6]) hv⟩

-- and a limit of 4 more than the number of bones is enough
example (k : Nat) : ∃ (e : Editor Rat), load (doc k) = .ok e ∧ cleanL (k + 5) e = clean e := by
  obtain ⟨e, r, l, h1, h2, h3, h4, h5, h6⟩ := loads k
  have hb : e.data.bones = r :: l := by rw [h2]
  refine ⟨e, h1, c67_short_bones_partial (proper k) h1 (by rw [h2]) ?_ (k + 1) (k + 5) ?_ (Nat.le_refl _)⟩
  · rw [hb]
    intro b hb' h
    rcases List.mem_cons.1 hb' with rfl | hb'
    · rw [h3] at h; revert h; decide
    · obtain ⟨j, hj, e1, _⟩ := h5.above b hb'
      rw [e1] at h
      simp only [nm, List.replicate_succ, List.cons.injEq] at h
      exact absurd h.1 (by decide)
  · intro m hm
    have := (hm.sublist (by rw [hb]; exact names_nodup h3 h5)).length_le
    rw [hb] at this
    simpa [h6] using this

end Ladder
end Spine

namespace Spine.Ladder
open Editor
/-- the result of cleaning the ladder of `k + 1` bones under a limit, as far as it can be compared -/
def cleanRung (k lim : Nat) : Option (Except Err (List Str × List Str)) := ((Editor.load (doc k)).toOption).map (fun e => (cleanL lim e).1)

-- 6 bones: the search for the tails needs 6 nested calls, one for each bone
example : cleanRung 5 5 = some (.error .diverge) ∧ cleanRung 5 6 = some (.ok ([], [])) := by decide +kernel
end Spine.Ladder
