import Verif.Lemmas.Restrict
import Verif.Lemmas.Ids
import Verif.Lemmas.DataShape
/-
Building the graph of a document = running a list of elementary commands read off the document, and the effect of
these commands on an abstract state (table of nodes, list of edges).
-/
set_option linter.unusedSectionVars false
namespace Spine
open JVal Graph
variable {F : Type}

/-! ### Commands -/

inductive Cmd (F : Type) where
  | node (i : Str) (d : Int × JVal F) (t : NType)
  | opt (i : Str) (d : Int × JVal F) (t : NType)
  | edge (p c : Str)
  | from_ (p c : Str)
  | to_ (p c : Str)

namespace Cmd

def run (g : SGraph F) : Cmd F → Except Err (SGraph F)
  | node i d t => exec (addNode spineFactory g (.str i) d t)
  | opt i d t => SpineNodes.addIfAbsent g i d t
  | edge p c => exec (addEdge g p c)
  | from_ p c => SpineNodes.linkFrom g p c
  | to_ p c => SpineNodes.linkTo g p c

def runAll (g : SGraph F) (cs : List (Cmd F)) : Except Err (SGraph F) := foldE run g cs

theorem runAll_append (g : SGraph F) (a b : List (Cmd F)) :
    runAll g (a ++ b) = (runAll g a).bind (fun g => runAll g b) := by
  unfold runAll; rw [foldE_append]; cases foldE run g a <;> rfl

theorem runAll_append_ok {g h : SGraph F} {a b : List (Cmd F)} :
    runAll g (a ++ b) = .ok h ↔ ∃ k, runAll g a = .ok k ∧ runAll k b = .ok h := by
  rw [runAll_append]
  cases runAll g a <;> simp [Except.bind]

theorem runAll_nil (g : SGraph F) : runAll g [] = .ok g := rfl

theorem runAll_cons_ok {g h : SGraph F} {c : Cmd F} {b : List (Cmd F)} :
    runAll g (c :: b) = .ok h ↔ ∃ k, run g c = .ok k ∧ runAll k b = .ok h := by
  simp only [runAll, foldE]
  cases run g c <;> simp

end Cmd

/-- `step` succeeds exactly when the piece can be read and its commands succeed -/
def Reads {α : Type} (step : SGraph F → α → Except Err (SGraph F)) (pl : α → Except Err (List (Cmd F))) : Prop :=
  ∀ g a h, step g a = .ok h ↔ ∃ cs, pl a = .ok cs ∧ Cmd.runAll g cs = .ok h

theorem Reads.foldE {α : Type} {step : SGraph F → α → Except Err (SGraph F)} {pl : α → Except Err (List (Cmd F))}
    (hr : Reads step pl) (l : List α) : ∀ g h, Graph.foldE step g l = .ok h ↔
      ∃ css, mapE pl l = .ok css ∧ Cmd.runAll g css.flatten = .ok h := by
  induction l with
  | nil => intro g h; simp [Graph.foldE, mapE, Cmd.runAll_nil]
  | cons a l ih =>
    intro g h
    have e1 : Graph.foldE step g (a :: l) = .ok h ↔ ∃ k, step g a = .ok k ∧ Graph.foldE step k l = .ok h := by
      simp only [Graph.foldE]; cases step g a <;> simp
    rw [e1]
    constructor
    · rintro ⟨k, h1, h2⟩
      obtain ⟨cs, p1, r1⟩ := (hr g a k).1 h1
      obtain ⟨css, p2, r2⟩ := (ih k h).1 h2
      refine ⟨cs :: css, by simp [mapE, p1, p2], ?_⟩
      rw [List.flatten_cons, Cmd.runAll_append_ok]
      exact ⟨k, r1, r2⟩
    · rintro ⟨css, h1, h2⟩
      unfold mapE at h1
      cases hp : pl a with
      | error e => rw [hp] at h1; simp at h1
      | ok cs =>
        rw [hp] at h1
        simp only at h1
        cases hm : mapE pl l with
        | error e => rw [hm] at h1; simp at h1
        | ok css' =>
          rw [hm] at h1
          injection h1 with h1; subst h1
          rw [List.flatten_cons, Cmd.runAll_append_ok] at h2
          obtain ⟨k, r1, r2⟩ := h2
          exact ⟨k, (hr g a k).2 ⟨cs, hp, r1⟩, (ih k h).2 ⟨css', hm, r2⟩⟩

/-! ### Reading the document -/

namespace Plan
open SpineNodes

def nameOf (v : JVal F) : Except Err Str := (subscript v s!!"name").bind fmtId

/-- formatted value of an optional key -/
def optId (v : JVal F) (k : Str) : Except Err Str := (dotGet v k).bind fmtId

def bone (p : JVal F × Nat) : Except Err (List (Cmd F)) := do
  let n ← nameOf p.1
  let q ← optId p.1 s!!"parent"
  return [.node (graphId .bone n) ((p.2 : Int), p.1) .bone, .from_ (graphId .bone q) (graphId .bone n)]

variable [PyRt F]

/-- the commands of one attachment with image `im` -/
def attCmds (sid k im : Str) (v : JVal F) : List (Cmd F) :=
  [.opt (graphId .attachment k) (-1, v) .attachment, .opt (graphId .image im) (-1, .dict []) .image,
   .edge (graphId .attachment k) (graphId .image im), .edge sid (graphId .attachment k)]

def att (sid : Str) (kv : Str × JVal F) : Except Err (List (Cmd F)) := do
  let im ← imageName kv.1 kv.2
  return attCmds sid kv.1 im kv.2

def skin (nm : JVal F) (sid : Str) (sk : JVal F) : Except Err (List (Cmd F)) := do
  let a ← dotGet sk s!!"attachments"
  if truthy a then do
    let e ← skinEntry a nm
    let e ← dictItems e
    let css ← mapE (att sid) e
    return css.flatten
  else return []

def skins (doc : JVal F) (nm : JVal F) (sid : Str) : Except Err (List (Cmd F)) := do
  let sk ← subscript doc s!!"skins"
  let sk ← iter sk
  let css ← mapE (skin nm sid) sk
  return css.flatten

def slot (doc : JVal F) (p : JVal F × Nat) : Except Err (List (Cmd F)) := do
  let n ← nameOf p.1
  let q ← optId p.1 s!!"bone"
  let nm ← subscript p.1 s!!"name"
  let cs ← skins doc nm (graphId .slot n)
  return .node (graphId .slot n) ((p.2 : Int), p.1) .slot :: .from_ (graphId .bone q) (graphId .slot n) :: cs

def ikBones (v : JVal F) : Except Err (List Str) := do
  let bs ← subscript v s!!"bones"
  let bs ← iter bs
  mapE fmtId bs

def ikTarget (v : JVal F) (n : Str) : Except Err (List (Cmd F)) := do
  let t ← dotGet v s!!"target"
  if truthy t then do
    let t ← fmtId t
    return [.from_ (graphId .bone t) (graphId .ik n)]
  else return []

def ik (p : JVal F × Nat) : Except Err (List (Cmd F)) := do
  let n ← nameOf p.1
  let bs ← ikBones p.1
  let t ← ikTarget p.1 n
  return .node (graphId .ik n) ((p.2 : Int), p.1) .ik ::
    (bs.map (fun b => .to_ (graphId .ik n) (graphId .bone b)) ++ t)

/-- the three phases -/
structure Phases (F : Type) where
  bones : List (List (Cmd F))
  slots : List (List (Cmd F))
  iks : List (List (Cmd F))

def Phases.all (p : Phases F) : List (Cmd F) := p.bones.flatten ++ (p.slots.flatten ++ p.iks.flatten)

def doc (d : JVal F) : Except Err (Phases F) := do
  let bs ← subscript d s!!"bones"
  let bs ← iter bs
  let bs ← mapE bone bs.zipIdx
  let ss ← docList d s!!"slots"
  let ss ← mapE (slot d) ss.zipIdx
  let is ← docList d s!!"ik"
  let is ← mapE ik is.zipIdx
  return ⟨bs, ss, is⟩

end Plan

/-- case analysis on the first computation -/
theorem bind_ok_iff {α β : Type} {x : Except Err α} {f : α → Except Err β} {b : β} :
    x >>= f = .ok b ↔ ∃ a, x = .ok a ∧ f a = .ok b := by
  cases x with
  | error e => simp [bind, Except.bind]
  | ok a => simp [bind, Except.bind]

theorem bind_ok_iff' {α β : Type} {x : Except Err α} {f : α → Except Err β} {b : β} :
    x.bind f = .ok b ↔ ∃ a, x = .ok a ∧ f a = .ok b := bind_ok_iff

theorem pure_ok_iff {α : Type} {a b : α} : (pure a : Except Err α) = .ok b ↔ a = b := by
  simp [pure, Except.pure]

namespace SpineNodes
open Plan

theorem reads_bone : Reads (fun (g : SGraph F) (p : JVal F × Nat) => addBone g p.1 p.2) Plan.bone := by
  intro g p h
  simp only [addBone, Plan.bone, nameOf, optId, bind_ok_iff, bind_ok_iff', pure_ok_iff]
  constructor
  · rintro ⟨v, h1, n, h2, k, h3, w, h4, q, h5, h6⟩
    refine ⟨_, ⟨n, ⟨v, h1, h2⟩, q, ⟨w, h4, h5⟩, rfl⟩, ?_⟩
    simp only [Cmd.runAll_cons_ok, Cmd.runAll_nil]
    exact ⟨k, h3, h, h6, rfl⟩
  · rintro ⟨cs, ⟨n, ⟨v, h1, h2⟩, q, ⟨w, h4, h5⟩, rfl⟩, hr⟩
    simp only [Cmd.runAll_cons_ok, Cmd.runAll_nil] at hr
    obtain ⟨k, h3, h', h6, e⟩ := hr
    injection e with e; subst e
    exact ⟨v, h1, n, h2, k, h3, w, h4, q, h5, h6⟩

variable [PyRt F]

theorem reads_att (sid : Str) : Reads (F := F) (addAttachment sid) (Plan.att sid) := by
  intro g p h
  simp only [addAttachment, Plan.att, bind_ok_iff, pure_ok_iff]
  constructor
  · rintro ⟨k1, h1, im, h2, k2, h3, k3, h4, h5⟩
    refine ⟨_, ⟨im, h2, rfl⟩, ?_⟩
    simp only [attCmds, Cmd.runAll_cons_ok, Cmd.runAll_nil]
    exact ⟨k1, h1, k2, h3, k3, h4, h, h5, rfl⟩
  · rintro ⟨cs, ⟨im, h2, rfl⟩, hr⟩
    simp only [attCmds, Cmd.runAll_cons_ok, Cmd.runAll_nil] at hr
    obtain ⟨k1, h1, k2, h3, k3, h4, h', h5, e⟩ := hr
    injection e with e; subst e
    exact ⟨k1, h1, im, h2, k2, h3, k3, h4, h5⟩

theorem reads_skin (nm : JVal F) (sid : Str) : Reads (F := F) (addSkin nm sid) (Plan.skin nm sid) := by
  intro g p h
  simp only [addSkin, Plan.skin, bind_ok_iff]
  by_cases ht : ∃ a, dotGet p s!!"attachments" = .ok a
  · obtain ⟨a, ha⟩ := ht
    simp only [ha, Except.ok.injEq, exists_eq_left']
    cases truthy a with
    | false =>
      simp only [Bool.false_eq_true, if_false, pure_ok_iff]
      constructor
      · rintro rfl; exact ⟨[], rfl, rfl⟩
      · rintro ⟨cs, rfl, hr⟩; injection hr
    | true =>
      simp only [if_true, bind_ok_iff, pure_ok_iff]
      constructor
      · rintro ⟨e, h1, e', h2, h3⟩
        obtain ⟨css, h4, h5⟩ := ((reads_att sid).foldE e' g h).1 h3
        exact ⟨_, ⟨e, h1, e', h2, css, h4, rfl⟩, h5⟩
      · rintro ⟨_, ⟨e, h1, e', h2, css, h4, rfl⟩, h5⟩
        exact ⟨e, h1, e', h2, ((reads_att sid).foldE e' g h).2 ⟨css, h4, h5⟩⟩
  · constructor
    · rintro ⟨a, ha, _⟩; exact absurd ⟨a, ha⟩ ht
    · rintro ⟨_, ⟨a, ha, _⟩, _⟩; exact absurd ⟨a, ha⟩ ht

theorem reads_slot (d : JVal F) : Reads (F := F) (addSlotAndSkins d) (Plan.slot d) := by
  intro g p h
  simp only [addSlotAndSkins, addSlot, Plan.slot, Plan.skins, nameOf, optId, bind_ok_iff, bind_ok_iff', pure_ok_iff]
  constructor
  · rintro ⟨⟨g', sid⟩, ⟨v, h1, n, h2, k, h3, w, h4, q, h5, k2, h6, he⟩, sk, h7, sk', h8, nm, h9, h10⟩
    injection he with he1 he2; subst he1 he2
    obtain ⟨css, c1, c2⟩ := ((reads_skin nm _).foldE sk' _ h).1 h10
    refine ⟨_, ⟨n, ⟨v, h1, h2⟩, q, ⟨w, h4, h5⟩, nm, h9, _, ⟨sk, h7, sk', h8, css, c1, rfl⟩, rfl⟩, ?_⟩
    simp only [Cmd.runAll_cons_ok]
    exact ⟨k, h3, _, h6, c2⟩
  · rintro ⟨cs, ⟨n, ⟨v, h1, h2⟩, q, ⟨w, h4, h5⟩, nm, h9, _, ⟨sk, h7, sk', h8, css, c1, rfl⟩, rfl⟩, hr⟩
    simp only [Cmd.runAll_cons_ok] at hr
    obtain ⟨k, h3, k2, h6, c2⟩ := hr
    exact ⟨(k2, graphId .slot n), ⟨v, h1, n, h2, k, h3, w, h4, q, h5, k2, h6, rfl⟩, sk, h7, sk', h8, nm, h9,
      ((reads_skin nm _).foldE sk' _ h).2 ⟨css, c1, c2⟩⟩

theorem reads_ikBone (i : Str) : Reads (F := F) (addIkBone i) (fun b => (fmtId b).bind (fun b => .ok [.to_ i (graphId .bone b)])) := by
  intro g b h
  simp only [addIkBone, bind_ok_iff, bind_ok_iff']
  constructor
  · rintro ⟨s, h1, h2⟩
    refine ⟨_, ⟨s, h1, rfl⟩, ?_⟩
    simp only [Cmd.runAll_cons_ok, Cmd.runAll_nil]
    exact ⟨h, h2, rfl⟩
  · rintro ⟨cs, ⟨s, h1, e⟩, hr⟩
    injection e with e; subst e
    simp only [Cmd.runAll_cons_ok, Cmd.runAll_nil] at hr
    obtain ⟨h', h2, e⟩ := hr
    injection e with e; subst e
    exact ⟨s, h1, h2⟩

theorem mapE_bind_singleton {α β : Type} (f : α → Except Err β) (g : β → Cmd F) (l : List α) :
    mapE (fun b => (f b).bind (fun b => .ok [g b])) l = (mapE f l).bind (fun bs => .ok (bs.map (fun b => [g b]))) := by
  induction l with
  | nil => rfl
  | cons a l ih =>
    simp only [mapE, ih]
    cases f a with
    | error e => rfl
    | ok b =>
      simp only [Except.bind]
      cases mapE f l <;> simp

theorem reads_ik : Reads (fun (g : SGraph F) (p : JVal F × Nat) => addIk g p.1 p.2) Plan.ik := by
  intro g p h
  simp only [addIk, Plan.ik, Plan.ikBones, Plan.ikTarget, nameOf, bind_ok_iff, bind_ok_iff', pure_ok_iff]
  have key : ∀ (n : Str) (bs : List (JVal F)) (k1 k2 : SGraph F), Graph.foldE (addIkBone (graphId .ik n)) k1 bs = .ok k2 ↔
      ∃ l, mapE fmtId bs = .ok l ∧ Cmd.runAll k1 (l.map (fun b => .to_ (graphId .ik n) (graphId .bone b))) = .ok k2 := by
    intro n bs k1 k2
    rw [(reads_ikBone _).foldE bs k1 k2,
      mapE_bind_singleton fmtId (fun b => Cmd.to_ (graphId .ik n) (graphId .bone b)) bs]
    simp only [bind_ok_iff']
    constructor
    · rintro ⟨css, ⟨l, h1, e⟩, h2⟩
      injection e with e; subst e
      refine ⟨l, h1, ?_⟩
      rwa [← List.flatMap_def, ← List.map_eq_flatMap] at h2
    · rintro ⟨l, h1, h2⟩
      refine ⟨_, ⟨l, h1, rfl⟩, ?_⟩
      rwa [← List.flatMap_def, ← List.map_eq_flatMap]
  constructor
  · rintro ⟨v, h1, n, h2, k, h3, bs, h4, bs', h5, k2, h6, t, h7, h8⟩
    obtain ⟨l, h9, h10⟩ := (key n bs' k k2).1 h6
    by_cases ht : truthy t
    · simp only [ht, if_true, bind_ok_iff] at h8
      obtain ⟨s, h11, h12⟩ := h8
      refine ⟨_, ⟨n, ⟨v, h1, h2⟩, l, ⟨bs, h4, bs', h5, h9⟩, [.from_ (graphId .bone s) (graphId .ik n)],
        ⟨t, h7, by simp only [ht, if_true, bind_ok_iff, pure_ok_iff]; exact ⟨s, h11, rfl⟩⟩, rfl⟩, ?_⟩
      simp only [Cmd.runAll_cons_ok, Cmd.runAll_append_ok, Cmd.runAll_nil]
      exact ⟨k, h3, k2, h10, h, h12, rfl⟩
    · simp only [ht] at h8
      refine ⟨_, ⟨n, ⟨v, h1, h2⟩, l, ⟨bs, h4, bs', h5, h9⟩, [], ⟨t, h7, by simp [ht, pure_ok_iff]⟩, rfl⟩, ?_⟩
      simp only [Cmd.runAll_cons_ok, List.append_nil]
      have : k2 = h := by simpa [pure_ok_iff] using h8
      subst this
      exact ⟨k, h3, h10⟩
  · rintro ⟨cs, ⟨n, ⟨v, h1, h2⟩, l, ⟨bs, h4, bs', h5, h9⟩, tc, ⟨t, h7, h8⟩, rfl⟩, hr⟩
    simp only [Cmd.runAll_cons_ok, Cmd.runAll_append_ok] at hr
    obtain ⟨k, h3, k2, h10, h11⟩ := hr
    refine ⟨v, h1, n, h2, k, h3, bs, h4, bs', h5, k2, (key n bs' k k2).2 ⟨l, h9, h10⟩, t, h7, ?_⟩
    by_cases ht : truthy t
    · simp only [ht, if_true, bind_ok_iff, pure_ok_iff] at h8 ⊢
      obtain ⟨s, h12, e⟩ := h8
      subst e
      simp only [Cmd.runAll_cons_ok, Cmd.runAll_nil] at h11
      obtain ⟨h', h13, e⟩ := h11
      injection e with e; subst e
      exact ⟨s, h12, h13⟩
    · simp only [ht] at h8 ⊢
      have : [] = tc := by simpa [pure_ok_iff] using h8
      subst this
      rw [Cmd.runAll_nil] at h11
      injection h11 with h11; subst h11
      simp [pure, Except.pure]

/-- building succeeds exactly when every piece can be read and every command succeeds -/
theorem create_iff (d : JVal F) (g : SGraph F) :
    create d = .ok g ↔ ∃ p, Plan.doc d = .ok p ∧ Cmd.runAll Graph.empty p.all = .ok g := by
  simp only [create, Plan.doc, bind_ok_iff, pure_ok_iff, Plan.Phases.all]
  constructor
  · rintro ⟨bs, h1, bs', h2, g1, h3, ss, h4, g2, h5, is, h6, h7⟩
    obtain ⟨cb, b1, b2⟩ := (reads_bone.foldE _ _ _).1 h3
    obtain ⟨cs, s1, s2⟩ := ((reads_slot d).foldE _ _ _).1 h5
    obtain ⟨ci, i1, i2⟩ := (reads_ik.foldE _ _ _).1 h7
    refine ⟨_, ⟨bs, h1, bs', h2, cb, b1, ss, h4, cs, s1, is, h6, ci, i1, rfl⟩, ?_⟩
    simp only [Cmd.runAll_append_ok]
    exact ⟨g1, b2, g2, s2, i2⟩
  · rintro ⟨p, ⟨bs, h1, bs', h2, cb, b1, ss, h4, cs, s1, is, h6, ci, i1, rfl⟩, hr⟩
    simp only [Cmd.runAll_append_ok] at hr
    obtain ⟨g1, b2, g2, s2, i2⟩ := hr
    exact ⟨bs, h1, bs', h2, g1, (reads_bone.foldE _ _ _).2 ⟨cb, b1, b2⟩, ss, h4, g2, ((reads_slot d).foldE _ _ _).2 ⟨cs, s1, s2⟩,
      is, h6, (reads_ik.foldE _ _ _).2 ⟨ci, i1, i2⟩⟩

end SpineNodes
end Spine
