import Verif.Lemmas.BuildShape
/- Reading the relevant part of a document; `create` = reading, then checking `GShape.Ok`. -/
set_option linter.unusedSectionVars false
namespace Spine
open JVal Graph
variable {F : Type}
namespace GShape
open Plan SpineNodes Abs

def readBone (v : JVal F) : Except Err (GBone F) := do
  let n ← nameOf v
  let q ← optId v s!!"parent"
  return ⟨n, q, v⟩

variable [PyRt F]

def readAtt (kv : Str × JVal F) : Except Err (Str × Str × JVal F) := do
  let im ← imageName kv.1 kv.2
  return (kv.1, im, kv.2)

def readSkin (nm : JVal F) (sk : JVal F) : Except Err (List (Str × Str × JVal F)) := do
  let a ← dotGet sk s!!"attachments"
  if truthy a then do
    let e ← skinEntry a nm
    let e ← dictItems e
    mapE readAtt e
  else return []

def readSlot (doc : JVal F) (v : JVal F) : Except Err (GSlot F) := do
  let n ← nameOf v
  let q ← optId v s!!"bone"
  let nm ← subscript v s!!"name"
  let sk ← subscript doc s!!"skins"
  let sk ← iter sk
  let css ← mapE (readSkin nm) sk
  return ⟨n, q, v, css.flatten⟩

def readTarget (v : JVal F) : Except Err (Option Str) := do
  let t ← dotGet v s!!"target"
  if truthy t then do
    let t ← fmtId t
    return some t
  else return none

def readIk (v : JVal F) : Except Err (GIk F) := do
  let n ← nameOf v
  let bs ← ikBones v
  let t ← readTarget v
  return ⟨n, bs, t, v⟩

def read (d : JVal F) : Except Err (GShape F) := do
  let bs ← subscript d s!!"bones"
  let bs ← iter bs
  let bs ← mapE readBone bs
  let ss ← docList d s!!"slots"
  let ss ← mapE (readSlot d) ss
  let is ← docList d s!!"ik"
  let is ← mapE readIk is
  return ⟨bs, ss, is⟩

/-- an exception-free computation followed by a pure function -/
theorem mapE_map {α β γ : Type} (f : α → Except Err β) (g : β → γ) (l : List α) :
    mapE (fun a => (f a).map g) l = (mapE f l).map (List.map g) := by
  induction l with
  | nil => rfl
  | cons a l ih =>
    simp only [mapE, ih]
    cases f a with
    | error e => rfl
    | ok b => cases mapE f l <;> rfl

theorem mapE_zipIdx {α β γ : Type} (f : α → Except Err β) (h : α × Nat → Except Err γ) (g : β × Nat → γ)
    (e : ∀ a i, h (a, i) = (f a).map (fun b => g (b, i))) (l : List α) : ∀ k,
    mapE h (l.zipIdx k) = (mapE f l).map (fun r => (r.zipIdx k).map g) := by
  induction l with
  | nil => intro k; rfl
  | cons a l ih =>
    intro k
    simp only [List.zipIdx_cons, mapE, ih, e]
    cases f a with
    | error e => rfl
    | ok b => cases mapE f l <;> simp [Except.map]

theorem bind_map {α β γ : Type} (x : Except Err α) (f : α → Except Err β) (g : β → γ) :
    (x >>= f).map g = x >>= fun a => (f a).map g := by cases x <;> rfl

theorem map_bind {α β γ : Type} (x : Except Err α) (f : β → Except Err γ) (g : α → β) :
    (x.map g) >>= f = x >>= fun a => f (g a) := by cases x <;> rfl

theorem bind_congr' {α β : Type} {x : Except Err α} {f g : α → Except Err β} (h : ∀ a, f a = g a) : x >>= f = x >>= g := by
  cases x with
  | error e => rfl
  | ok a => exact h a

theorem plan_bone (v : JVal F) (i : Nat) : Plan.bone (v, i) = (readBone v).map (fun b => boneCmds (b, i)) := by
  simp only [Plan.bone, readBone, bind_map]
  rfl

theorem plan_att (sid : Str) : Plan.att (F := F) sid = fun a => (readAtt a).map (attCmds sid) := by
  funext a
  simp only [Plan.att, readAtt, bind_map]
  rfl

theorem map_flatMap_flatten {α β : Type} (f : α → List β) (l : List (List α)) :
    (l.map (List.flatMap f)).flatten = l.flatten.flatMap f := by
  induction l with
  | nil => rfl
  | cons a l ih => simp [ih]

theorem plan_skin (nm : JVal F) (sid : Str) :
    Plan.skin (F := F) nm sid = fun sk => (readSkin nm sk).map (List.flatMap (attCmds sid)) := by
  funext sk
  simp only [Plan.skin, readSkin, bind_map]
  refine bind_congr' fun a => ?_
  cases truthy a with
  | false => rfl
  | true =>
    simp only [if_true, bind_map]
    refine bind_congr' fun e => bind_congr' fun e' => ?_
    rw [plan_att, mapE_map, map_bind]
    cases mapE readAtt e' with
    | error e => rfl
    | ok l => simp [Except.map, pure, Except.pure, bind, Except.bind, List.flatMap_def]

theorem plan_slot (d : JVal F) (v : JVal F) (i : Nat) :
    Plan.slot d (v, i) = (readSlot d v).map (fun b => slotCmds (b, i)) := by
  simp only [Plan.slot, readSlot, bind_map, Plan.skins]
  refine bind_congr' fun n => bind_congr' fun q => bind_congr' fun nm => ?_
  simp only [bind_assoc]
  refine bind_congr' fun sk => bind_congr' fun sk' => ?_
  rw [plan_skin, mapE_map, map_bind]
  refine bind_congr' fun css => ?_
  simp [Except.map, pure, Except.pure, bind, Except.bind, slotCmds, map_flatMap_flatten]

theorem plan_ik (v : JVal F) (i : Nat) : Plan.ik (v, i) = (readIk v).map (fun b => ikCmds (b, i)) := by
  simp only [Plan.ik, readIk, bind_map]
  refine bind_congr' fun n => bind_congr' fun bs => ?_
  simp only [Plan.ikTarget, readTarget, bind_assoc]
  refine bind_congr' fun t => ?_
  cases truthy t with
  | false => simp [Except.map, pure, Except.pure, bind, Except.bind, ikCmds]
  | true =>
    simp only [if_true, bind_assoc]
    refine bind_congr' fun t => ?_
    simp [Except.map, pure, Except.pure, bind, Except.bind, ikCmds]

theorem plan_doc (d : JVal F) : Plan.doc d = (read d).map (fun g =>
    ⟨g.bones.zipIdx.map boneCmds, g.slots.zipIdx.map slotCmds, g.iks.zipIdx.map ikCmds⟩) := by
  simp only [Plan.doc, read, bind_map]
  refine bind_congr' fun bs => bind_congr' fun bs' => ?_
  rw [mapE_zipIdx readBone Plan.bone boneCmds plan_bone, map_bind]
  refine bind_congr' fun b => bind_congr' fun ss => ?_
  rw [mapE_zipIdx (readSlot d) (Plan.slot d) slotCmds (plan_slot d), map_bind]
  refine bind_congr' fun s => bind_congr' fun is => ?_
  rw [mapE_zipIdx readIk Plan.ik ikCmds plan_ik, map_bind]
  rfl

/-- the graph built from a shape -/
structure Built (sh : GShape F) (g : SGraph F) : Prop where
  ok : Ok sh
  repr : ∃ s, (Abs.empty : Abs F).steps sh.cmds = some s ∧ Repr g s

theorem create_iff_read (d : JVal F) (g : SGraph F) :
    create d = .ok g ↔ ∃ sh, read d = .ok sh ∧ Cmd.runAll Graph.empty sh.cmds = .ok g := by
  rw [create_iff, plan_doc]
  constructor
  · rintro ⟨p, h1, h2⟩
    cases hr : read d with
    | error e => rw [hr] at h1; cases h1
    | ok sh =>
      rw [hr] at h1
      injection h1 with h1; subst h1
      refine ⟨sh, rfl, ?_⟩
      simpa [Phases.all, cmds, List.flatMap_def] using h2
  · rintro ⟨sh, h1, h2⟩
    rw [h1]
    exact ⟨_, rfl, by simpa [Phases.all, cmds, List.flatMap_def] using h2⟩

theorem create_built {d : JVal F} {g : SGraph F} (h : create d = .ok g) : ∃ sh, read d = .ok sh ∧ Built sh g := by
  obtain ⟨sh, h1, h2⟩ := (create_iff_read d g).1 h
  obtain ⟨s, h3, h4⟩ := (repr_empty.steps_sim sh.cmds).1 g h2
  exact ⟨sh, h1, (steps_ok sh).1 ⟨s, h3⟩, s, h3, h4⟩

theorem create_ok {d : JVal F} {sh : GShape F} (h1 : read d = .ok sh) (h2 : Ok sh) : ∃ g, create d = .ok g ∧ Built sh g := by
  obtain ⟨s, h3⟩ := (steps_ok sh).2 h2
  obtain ⟨g, h4, h5⟩ := (repr_empty.steps_sim sh.cmds).2 s h3
  exact ⟨g, (create_iff_read d g).2 ⟨sh, h1, h4⟩, h2, s, h3, h5⟩

theorem Built.wf {sh : GShape F} {g : SGraph F} (h : Built sh g) : WF g := h.repr.elim fun _ h => h.2.wf

theorem Built.hasNode {sh : GShape F} {g : SGraph F} (h : Built sh g) (x : Str) :
    HasNode g x ↔ (∃ b ∈ sh.bones, x = graphId .bone b.name) ∨
      (∃ b ∈ sh.slots, x = graphId .slot b.name ∨ ∃ a ∈ b.atts, x = graphId .attachment a.1 ∨ x = graphId .image a.2.1) ∨
      (∃ b ∈ sh.iks, x = graphId .ik b.name) := by
  obtain ⟨s, h1, h2⟩ := h.repr
  rw [hasNode_iff_mem_keys, ← h2.keys, final_keys h1]

theorem Built.has_bone {sh : GShape F} {g : SGraph F} (h : Built sh g) (n : Str) :
    HasNode g (graphId .bone n) ↔ ∃ b ∈ sh.bones, b.name = n := by
  rw [h.hasNode]
  constructor
  · rintro (⟨b, hb, e⟩ | ⟨b, _, e | ⟨a, _, e | e⟩⟩ | ⟨b, _, e⟩)
    · exact ⟨b, hb, (graphId_inj e).2.symm⟩
    all_goals cases (graphId_inj e).1
  · rintro ⟨b, hb, rfl⟩; exact .inl ⟨b, hb, rfl⟩

theorem Built.has_slot {sh : GShape F} {g : SGraph F} (h : Built sh g) (n : Str) :
    HasNode g (graphId .slot n) ↔ ∃ b ∈ sh.slots, b.name = n := by
  rw [h.hasNode]
  constructor
  · rintro (⟨b, _, e⟩ | ⟨b, hb, e | ⟨a, _, e | e⟩⟩ | ⟨b, _, e⟩)
    · cases (graphId_inj e).1
    · exact ⟨b, hb, (graphId_inj e).2.symm⟩
    all_goals cases (graphId_inj e).1
  · rintro ⟨b, hb, rfl⟩; exact .inr (.inl ⟨b, hb, .inl rfl⟩)

theorem Built.has_att {sh : GShape F} {g : SGraph F} (h : Built sh g) (n : Str) :
    HasNode g (graphId .attachment n) ↔ ∃ b ∈ sh.slots, ∃ a ∈ b.atts, a.1 = n := by
  rw [h.hasNode]
  constructor
  · rintro (⟨b, _, e⟩ | ⟨b, hb, e | ⟨a, ha, e | e⟩⟩ | ⟨b, _, e⟩)
    · cases (graphId_inj e).1
    · cases (graphId_inj e).1
    · exact ⟨b, hb, a, ha, (graphId_inj e).2.symm⟩
    all_goals cases (graphId_inj e).1
  · rintro ⟨b, hb, a, ha, rfl⟩; exact .inr (.inl ⟨b, hb, .inr ⟨a, ha, .inl rfl⟩⟩)

theorem Built.has_image {sh : GShape F} {g : SGraph F} (h : Built sh g) (n : Str) :
    HasNode g (graphId .image n) ↔ ∃ b ∈ sh.slots, ∃ a ∈ b.atts, a.2.1 = n := by
  rw [h.hasNode]
  constructor
  · rintro (⟨b, _, e⟩ | ⟨b, hb, e | ⟨a, ha, e | e⟩⟩ | ⟨b, _, e⟩)
    · cases (graphId_inj e).1
    · cases (graphId_inj e).1
    · cases (graphId_inj e).1
    · exact ⟨b, hb, a, ha, (graphId_inj e).2.symm⟩
    all_goals cases (graphId_inj e).1
  · rintro ⟨b, hb, a, ha, rfl⟩; exact .inr (.inl ⟨b, hb, .inr ⟨a, ha, .inr rfl⟩⟩)

theorem Built.has_ik {sh : GShape F} {g : SGraph F} (h : Built sh g) (n : Str) :
    HasNode g (graphId .ik n) ↔ ∃ b ∈ sh.iks, b.name = n := by
  rw [h.hasNode]
  constructor
  · rintro (⟨b, _, e⟩ | ⟨b, hb, e | ⟨a, _, e | e⟩⟩ | ⟨b, hb, e⟩)
    · cases (graphId_inj e).1
    · cases (graphId_inj e).1
    · cases (graphId_inj e).1
    · cases (graphId_inj e).1
    · exact ⟨b, hb, (graphId_inj e).2.symm⟩
  · rintro ⟨b, hb, rfl⟩; exact .inr (.inr ⟨b, hb, rfl⟩)

theorem Built.edge {sh : GShape F} {g : SGraph F} (h : Built sh g) (p c : Str) : Edge g p c ↔ Link sh p c := by
  obtain ⟨s, h1, h2⟩ := h.repr
  rw [h2.edge, final_edges h1 h2.sound]

theorem cmds_typed (sh : GShape F) (c : Cmd F) (hc : c ∈ sh.cmds) : CmdTyped c := by
  simp only [cmds, List.mem_append] at hc
  rcases hc with hc | hc | hc
  · exact bone_typed _ c hc
  · exact slot_typed _ c hc
  · obtain ⟨p, _, hc⟩ := List.mem_flatMap.1 hc
    simp only [ikCmds, List.mem_cons, List.mem_append, List.mem_map] at hc
    rcases hc with rfl | ⟨b, _, rfl⟩ | ⟨t, _, rfl⟩
    · exact ⟨_, rfl⟩
    · trivial
    · trivial

/-- the type of a node shows in its id -/
theorem Built.ntype {sh : GShape F} {g : SGraph F} (h : Built sh g) {t : NType} {n : Str} {nd : Node NType (Int × JVal F)}
    (hn : getNode g (graphId t n) = some nd) : nd.ntype = t := by
  obtain ⟨s, h1, h2⟩ := h.repr
  have ht := typed_empty.steps (cmds_typed sh) h1
  have := h2.get? (graphId t n)
  rw [hn] at this
  exact ht.get? this

theorem insertKey_le {α : Type} (x : α × Int) : ∀ l : List (α × Int), (∀ y ∈ l, x.2 ≤ y.2) → DrawOrder.insertKey x l = x :: l
  | [], _ => rfl
  | y :: l, h => by simp [DrawOrder.insertKey, h y (by simp)]

theorem sortOps_sorted_self {α : Type} (l : List (α × Int)) (h : l.Pairwise (fun a b => a.2 ≤ b.2)) : DrawOrder.sortOps l = l := by
  induction l with
  | nil => rfl
  | cons a l ih =>
    rw [List.pairwise_cons] at h
    show DrawOrder.insertKey a (DrawOrder.sortOps l) = a :: l
    rw [ih h.2, insertKey_le a l h.1]

theorem zipIdx_sorted {α β : Type} (f : α → β) (l : List α) : ∀ k,
    (((l.zipIdx k).map (fun p => ((p.2 : Int), f p.1))).map (fun q => (q.2, q.1))).Pairwise (fun a b => a.2 ≤ b.2) := by
  induction l with
  | nil => intro k; simp
  | cons a l ih =>
    intro k
    simp only [List.zipIdx_cons, List.map_cons, List.pairwise_cons]
    refine ⟨?_, ih (k + 1)⟩
    intro y hy
    simp only [List.map_map, List.mem_map, Function.comp] at hy
    obtain ⟨p, hp, rfl⟩ := hy
    have := List.le_snd_of_mem_zipIdx hp
    simp only
    omega

/-- id and data of the nodes of one type, in insertion order -/
def _root_.Spine.nodesOf (g : SGraph F) (t : NType) : List (Str × (Int × JVal F)) :=
  (g.nodes.filter (fun p => p.2.ntype = t)).map (fun p => (p.1, p.2.data))

theorem Built.nodesOf {sh : GShape F} {g : SGraph F} (h : Built sh g) (t : NType) (h1 : t ≠ .attachment) (h2 : t ≠ .image) :
    nodesOf g t =
      (if t = .bone then sh.bones.zipIdx.map (fun p => (graphId .bone p.1.name, ((p.2 : Int), p.1.v))) else []) ++
      ((if t = .slot then sh.slots.zipIdx.map (fun p => (graphId .slot p.1.name, ((p.2 : Int), p.1.v))) else []) ++
       (if t = .ik then sh.iks.zipIdx.map (fun p => (graphId .ik p.1.name, ((p.2 : Int), p.1.v))) else [])) := by
  obtain ⟨s, e1, e2⟩ := h.repr
  rw [← final_ofType e1 h1 h2, Abs.ofType, ← e2.nodes]
  simp [Spine.nodesOf, List.filter_map, List.map_map, Function.comp_def]

theorem ofType_nodesOf (g : SGraph F) (t : NType) :
    ((Dict.values g.nodes).filter (fun n => n.ntype = t)).map (fun n => n.data) = (Spine.nodesOf g t).map (·.2) := by
  simp [Spine.nodesOf, Dict.values, List.filter_map, List.map_map, Function.comp_def]

theorem Built.ofType {sh : GShape F} {g : SGraph F} (h : Built sh g) (t : NType) (h1 : t ≠ .attachment) (h2 : t ≠ .image) :
    ((Dict.values g.nodes).filter (fun n => n.ntype = t)).map (fun n => n.data) =
      (if t = .bone then sh.bones.zipIdx.map (fun p => ((p.2 : Int), p.1.v)) else []) ++
      ((if t = .slot then sh.slots.zipIdx.map (fun p => ((p.2 : Int), p.1.v)) else []) ++
       (if t = .ik then sh.iks.zipIdx.map (fun p => ((p.2 : Int), p.1.v)) else [])) := by
  rw [ofType_nodesOf, h.nodesOf t h1 h2]
  simp only [List.map_append]
  congr 1
  · split <;> simp
  · congr 1
    · split <;> simp
    · split <;> simp

theorem Built.listOfType {sh : GShape F} {g : SGraph F} (h : Built sh g) :
    SpineNodes.listOfType g .bone = sh.bones.map (·.v) ∧ SpineNodes.listOfType g .slot = sh.slots.map (·.v) ∧
    SpineNodes.listOfType g .ik = sh.iks.map (·.v) := by
  have key : ∀ {α : Type} (f : α → JVal F) (l : List α) (t : NType),
      ((Dict.values g.nodes).filter (fun n => n.ntype = t)).map (fun n => n.data) = l.zipIdx.map (fun p => ((p.2 : Int), f p.1)) →
      SpineNodes.listOfType g t = l.map f := by
    intro α f l t e
    unfold SpineNodes.listOfType
    have e' : ((Dict.values g.nodes).filter (fun n => n.ntype = t)).map (fun n => (n.data.2, n.data.1)) =
        (l.zipIdx.map (fun p => ((p.2 : Int), f p.1))).map (fun q => (q.2, q.1)) := by
      rw [← e, List.map_map]; rfl
    rw [e', sortOps_sorted_self _ (zipIdx_sorted f l 0)]
    simp only [List.map_map, Function.comp_def]
    exact map_zipIdx_fst f l 0
  refine ⟨key _ _ _ ?_, key _ _ _ ?_, key _ _ _ ?_⟩
  · simpa using h.ofType .bone (by decide) (by decide)
  · simpa using h.ofType .slot (by decide) (by decide)
  · simpa using h.ofType .ik (by decide) (by decide)

theorem Built.types {sh : GShape F} {g : SGraph F} (h : Built sh g) :
    (Dict.values g.nodes).all (fun n => n.ntype ∈ [NType.bone, .slot, .ik, .attachment, .image]) = true := by
  rw [List.all_eq_true]
  intro n hn
  simp only [Dict.values, List.mem_map] at hn
  obtain ⟨⟨x, m⟩, hx, rfl⟩ := hn
  have hg : getNode g x = some m := Dict.get?_of_mem h.wf.keys_nodup hx
  rcases (h.hasNode x).1 ⟨m, hg⟩ with ⟨b, _, rfl⟩ | ⟨b, _, rfl | ⟨a, _, rfl | rfl⟩⟩ | ⟨b, _, rfl⟩ <;> simp [h.ntype hg]

theorem Built.toJsonData {sh : GShape F} {g : SGraph F} (h : Built sh g) :
    SpineNodes.toJsonData g = .ok ⟨sh.bones.map (·.v), sh.slots.map (·.v), sh.iks.map (·.v)⟩ := by
  unfold SpineNodes.toJsonData
  rw [if_pos h.types]
  simp [h.listOfType]

end GShape
end Spine
