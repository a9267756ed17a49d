import Verif.Lemmas.SkinOps
import Verif.Lemmas.Refs
/-
Calls that concern different parts of the document: the same calls with other animations, and with scaled bones.
-/
set_option linter.unusedSectionVars false
set_option linter.unusedSimpArgs false
set_option linter.unusedVariables false
namespace Spine
open JVal Graph AnimData
variable {F : Type} [PyRt F]

/-! ### Fewer animations -/

/-- the document without the animations called `names` -/
def AnimData.lessAnims (names : List Str) (a : AnimData F) : AnimData F :=
  { a with animations := a.animations.filter (fun p => p.1 ∉ names) }

namespace AnimData

theorem removeSkin_less (names : List Str) (n : Str) (a : AnimData F) :
    removeSkin n (a.lessAnims names) = ((removeSkin n a).1, (removeSkin n a).2.lessAnims names) := by
  unfold removeSkin
  have hg : getSkin (a.lessAnims names) n = getSkin a n := rfl
  rw [hg]
  cases getSkin a n with
  | none => rfl
  | some gone =>
    simp only
    show (match (mapMut (relinkSkin gone n) a.skins).1 with
      | .error e => _
      | .ok _ => _) = _
    cases (mapMut (relinkSkin gone n) a.skins).1 with
    | error e => rfl
    | ok _ =>
      simp only
      cases removedImages gone with
      | error e => rfl
      | ok r =>
        simp only [lessAnims]
        rw [← dmap_filter (dropDeform n) a.animations (fun k => decide (k ∉ names))]

end AnimData

namespace Editor

theorem removeSkins_less (names l : List Str) (a : AnimData F) :
    removeSkins l (a.lessAnims names) = ((removeSkins l a).1, (removeSkins l a).2.lessAnims names) := by
  induction l generalizing a with
  | nil => rfl
  | cons n l ih =>
    simp only [removeSkins]
    rw [removeSkin_less]
    generalize removeSkin n a = q
    obtain ⟨o, a1⟩ := q
    cases o with
    | error x => rfl
    | ok v =>
      obtain ⟨i, r⟩ := v
      simp only
      rw [ih]
      generalize removeSkins l a1 = q
      obtain ⟨o, a2⟩ := q
      cases o with
      | error x => rfl
      | ok v => rfl

/-- the graph is built from bones, slots, skins and ik constraints -/
theorem create_congr {d d' : Dict (JVal F)}
    (h : ∀ k ∈ [s!!"bones", s!!"slots", s!!"ik", s!!"skins"], Dict.get? d k = Dict.get? d' k) :
    SpineNodes.create (.dict d) = SpineNodes.create (.dict d') := by
  have hs : SpineNodes.addSlotAndSkins (.dict d) = SpineNodes.addSlotAndSkins (.dict d') := by
    funext g p
    unfold SpineNodes.addSlotAndSkins subscript getItem
    simp only
    rw [h s!!"skins" (by simp)]
  unfold SpineNodes.create
  rw [hs]
  simp only [subscript, getItem, SpineNodes.docList, getIter]
  rw [h s!!"bones" (by simp), h s!!"slots" (by simp), h s!!"ik" (by simp)]

theorem get?_append {α : Type} (d d' : Dict α) (k : Str) :
    Dict.get? (d ++ d') k = match Dict.get? d k with
      | some v => some v
      | none => Dict.get? d' k := by
  induction d with
  | nil => rfl
  | cons p d ih =>
    obtain ⟨k', v⟩ := p
    simp only [List.cons_append, Dict.get?]
    split
    · rfl
    · exact ih

theorem get?_jd_ne {α : Type} {k k' : Str} (h : k ≠ k') (f : α → JVal F) (d : Dict α) : Dict.get? (jd k f d) k' = none := by
  unfold jd
  split
  · rfl
  · simp [Dict.get?, h]

theorem create_less (names : List Str) (s : SpineDoc F) :
    SpineNodes.create { s with data := s.data.lessAnims names }.toJson = SpineNodes.create s.toJson := by
  unfold SpineDoc.toJson
  refine create_congr (fun k hk => ?_)
  rw [Dict.get?_set, Dict.get?_set]
  simp only [AnimData.toJson, AnimData.lessAnims]
  have hk' : s!!"animations" ≠ k := by
    rintro rfl; revert hk; decide
  rw [get?_append, get?_append (d' := jd s!!"animations" _ s.data.animations), get?_jd_ne hk', get?_jd_ne hk']

/-- the editor without the animations called `names` -/
def lessAnims (names : List Str) (e : Editor F) : Editor F := e.withData (e.data.lessAnims names)

theorem eraseSkins_less (names l : List Str) (e : Editor F) :
    eraseSkins l true (e.lessAnims names) = ((eraseSkins l true e).1, (eraseSkins l true e).2.lessAnims names) := by
  unfold eraseSkins
  have h : removeSkins l (e.lessAnims names).data = _ := removeSkins_less names l e.data
  rw [h]
  generalize removeSkins l e.data = q
  obtain ⟨o, a⟩ := q
  cases o with
  | error x => rfl
  | ok v =>
    obtain ⟨i, r⟩ := v
    simp only
    have hc : SpineNodes.create ((e.lessAnims names).withData (a.lessAnims names)).toJson = SpineNodes.create (e.withData a).toJson :=
      create_less names { e.doc with data := a }
    rw [hc]
    cases SpineNodes.create (e.withData a).toJson with
    | error x => rfl
    | ok g => rfl

theorem eraseAnims_safe (names : List Str) (strict : Bool) (e : Editor F) :
    eraseAnims (.list names) strict true e =
      (if strict = true ∧ ¬ (names.Nodup ∧ ∀ n ∈ names, n ∈ Dict.keys e.data.animations) then .error .value
        else .ok ((e.lessAnims names).toJson, ([], [])), e.lessAnims names) := by
  have h1 := eraseRaw_fst names e.data.animations
  have h2 := eraseRaw_snd_nil names e.data.animations
  have h3 : ((eraseRaw names e.data.animations).2 ≠ [] ∧ strict = true) ↔
      (strict = true ∧ ¬ (names.Nodup ∧ ∀ n ∈ names, n ∈ Dict.keys e.data.animations)) := by rw [ne_eq, h2, and_comm]
  simp only [eraseAnims]
  rw [h1]
  by_cases hc : (eraseRaw names e.data.animations).2 ≠ [] ∧ strict = true
  · rw [if_pos hc, if_pos (h3.1 hc)]; rfl
  · rw [if_neg hc, if_neg (fun h => hc (h3.2 h))]; rfl

theorem removeSkin_animKeys (n : Str) (a : AnimData F) :
    Dict.keys (removeSkin n a).2.animations = Dict.keys a.animations := by
  unfold removeSkin
  split
  · rfl
  · simp only
    split
    · rfl
    · split
      · rfl
      · exact keys_dmap _ _

theorem removeSkins_animKeys (l : List Str) (a : AnimData F) :
    Dict.keys (removeSkins l a).2.animations = Dict.keys a.animations := by
  induction l generalizing a with
  | nil => rfl
  | cons n l ih =>
    rw [← removeSkin_animKeys n a]
    simp only [removeSkins]
    generalize removeSkin n a = q
    obtain ⟨o, a1⟩ := q
    cases o with
    | error x => rfl
    | ok v =>
      rw [← ih a1]
      obtain ⟨i, r⟩ := v
      simp only
      generalize removeSkins l a1 = q
      obtain ⟨o, a2⟩ := q
      cases o <;> rfl

theorem eraseSkins_safe_animKeys (l : List Str) (e : Editor F) :
    Dict.keys (eraseSkins l true e).2.data.animations = Dict.keys e.data.animations := by
  have h := removeSkins_animKeys l e.data
  unfold eraseSkins
  generalize removeSkins l e.data = q at h ⊢
  obtain ⟨o, a⟩ := q
  cases o with
  | error x => exact h
  | ok v =>
    obtain ⟨i, r⟩ := v
    simp only
    cases SpineNodes.create (e.withData a).toJson with
    | error x => exact h
    | ok g => exact h

/-! ### Scaled bones -/

/-- a node without its data -/
def blankNode (n : Node NType (Int × JVal F)) : Node NType (Int × JVal F) := { n with data := (0, .null) }

/-- the graph without the data of the nodes -/
def blank (g : SGraph F) : SGraph F := { g with nodes := dmap blankNode g.nodes }

theorem getNode_blank (g : SGraph F) (i : Str) : getNode (blank g) i = (getNode g i).map blankNode := by
  unfold getNode blank
  exact get?_dmap _ _ _

theorem set_dmap {α β : Type} (f : α → β) (d : Dict α) (k : Str) (v : α) : Dict.set (dmap f d) k (f v) = dmap f (Dict.set d k v) := by
  induction d with
  | nil => rfl
  | cons p d ih =>
    obtain ⟨k', v'⟩ := p
    simp only [dmap, List.map_cons, Dict.set] at ih ⊢
    split
    · rfl
    · rw [ih]; rfl

theorem modify_dmap {α β : Type} (f : α → β) (m : α → α) (m' : β → β) (h : ∀ x, m' (f x) = f (m x)) (d : Dict α) (k : Str) :
    Dict.modify (dmap f d) k m' = dmap f (Dict.modify d k m) := by
  induction d with
  | nil => rfl
  | cons p d ih =>
    simp only [dmap, Dict.modify, List.map_cons] at ih ⊢
    rw [ih]
    congr 1
    split <;> simp [h]

theorem skipUsed_blank (g : SGraph F) (k n : Nat) : skipUsed (blank g).nodes k n = skipUsed g.nodes k n := by
  induction k generalizing n with
  | zero => rfl
  | succ k ih =>
    unfold skipUsed
    have : Dict.has (blank g).nodes (natStr n) = Dict.has g.nodes (natStr n) := by
      unfold Dict.has blank; rw [get?_dmap]; simp
    rw [this, ih]

/-- errors are kept, graphs lose their data -/
def blankE (r : Except Err (SGraph F)) : Except Err (SGraph F) := r.map blank

theorem addNode_blank (g : SGraph F) (i : Str) (d d' : Int × JVal F) (t : NType) :
    blankE (exec (addNode spineFactory g (.str i) d t)) = blankE (exec (addNode spineFactory (blank g) (.str i) d' t)) := by
  unfold addNode genId
  have hl : (blank g).nodes.length = g.nodes.length := by simp [blank, dmap]
  rw [hl, skipUsed_blank]
  have hi : (blank g).idGen = g.idGen := rfl
  rw [hi]
  cases skipUsed g.nodes (g.nodes.length + 1) (g.idGen + 1) with
  | none => rfl
  | some n =>
    simp only
    have hh : Dict.has (blank g).nodes i = Dict.has g.nodes i := by
      unfold Dict.has blank; rw [get?_dmap]; simp
    rw [hh]
    split
    · rfl
    · simp only [exec, blankE, Except.map, blank, Except.ok.injEq, Graph.mk.injEq, true_and]
      rw [← set_dmap, ← set_dmap, dmap_dmap]
      rfl

theorem addEdge_blank (g : SGraph F) (p c : Str) : blankE (exec (addEdge g p c)) = blankE (exec (addEdge (blank g) p c)) := by
  unfold addEdge addChild addParent
  simp only [getNode_blank]
  cases getNode g p with
  | none => cases getNode g c <;> rfl
  | some m1 =>
    cases getNode g c with
    | none => rfl
    | some m2 =>
      simp only [Option.map_some]
      by_cases h1 : m2.ntype ∈ m1.forbidden
      · have e1 : (blankNode m2).ntype = m2.ntype := rfl
        have e2 : (blankNode m1).forbidden = m1.forbidden := rfl
        simp [e1, e2, h1, exec, blankE, Except.map]
      · by_cases h2 : p = c
        · have e1 : (blankNode m2).ntype = m2.ntype := rfl
          have e2 : (blankNode m1).forbidden = m1.forbidden := rfl
          simp [e1, e2, h1, h2, exec, blankE, Except.map]
        · have e1 : (blankNode m2).ntype = m2.ntype := rfl
          have e2 : (blankNode m1).forbidden = m1.forbidden := rfl
          have e3 : (blankNode m1).id = m1.id := rfl
          have e4 : (blankNode m2).id = m2.id := rfl
          simp only [e1, e2, e3, e4, h1, h2, if_false, exec, blankE, Except.map, blank, Except.ok.injEq, Graph.mk.injEq, true_and]
          rw [modify_dmap blankNode (fun n => { n with children := addLink n.children m2.id }) _ (fun _ => rfl),
            modify_dmap blankNode (fun n => { n with parents := addLink n.parents m1.id }) _ (fun _ => rfl), dmap_dmap]
          rfl

/-- the same but for the data of the nodes -/
def Twins (r r' : Except Err (SGraph F)) : Prop := blankE r = blankE r'

theorem Twins.ok {g g' : SGraph F} : Twins (.ok g) (.ok g') ↔ blank g = blank g' := by
  simp [Twins, blankE, Except.map]

theorem Twins.bind {r r' : Except Err (SGraph F)} {k k' : SGraph F → Except Err (SGraph F)} (h : Twins r r')
    (hk : ∀ g g', blank g = blank g' → Twins (k g) (k' g')) : Twins (r >>= k) (r' >>= k') := by
  unfold Twins blankE at *
  cases r with
  | error x => cases r' with
    | error y => exact h
    | ok g' => cases h
  | ok g => cases r' with
    | error y => cases h
    | ok g' =>
      simp only [Except.map, Except.ok.injEq] at h
      exact hk g g' h

theorem twins_addNode {g g' : SGraph F} (h : blank g = blank g') (i : Str) (d d' : Int × JVal F) (t : NType) :
    Twins (exec (addNode spineFactory g (.str i) d t)) (exec (addNode spineFactory g' (.str i) d' t)) := by
  unfold Twins
  rw [addNode_blank g i d d' t, addNode_blank g' i d' d' t, h]

theorem twins_addEdge {g g' : SGraph F} (h : blank g = blank g') (p c : Str) :
    Twins (exec (addEdge g p c)) (exec (addEdge g' p c)) := by
  unfold Twins
  rw [addEdge_blank g, addEdge_blank g', h]

theorem getNode_twin {g g' : SGraph F} (h : blank g = blank g') (i : Str) :
    (getNode g i).map blankNode = (getNode g' i).map blankNode := by
  rw [← getNode_blank, ← getNode_blank, h]

theorem twins_linkFrom {g g' : SGraph F} (h : blank g = blank g') (p c : Str) :
    Twins (SpineNodes.linkFrom g p c) (SpineNodes.linkFrom g' p c) := by
  have hn := getNode_twin h p
  unfold SpineNodes.linkFrom
  cases h1 : getNode g p with
  | none => cases h2 : getNode g' p with
    | none => exact Twins.ok.2 h
    | some n => rw [h1, h2] at hn; cases hn
  | some n => cases h2 : getNode g' p with
    | none => rw [h1, h2] at hn; cases hn
    | some n' =>
      rw [h1, h2] at hn
      have : n.id = n'.id := by
        have := congrArg (Option.map (·.id)) hn
        simpa [blankNode] using this
      simp only [this]
      exact twins_addEdge h _ _

theorem twins_linkTo {g g' : SGraph F} (h : blank g = blank g') (p c : Str) :
    Twins (SpineNodes.linkTo g p c) (SpineNodes.linkTo g' p c) := by
  have hn := getNode_twin h c
  unfold SpineNodes.linkTo
  cases h1 : getNode g c with
  | none => cases h2 : getNode g' c with
    | none => exact Twins.ok.2 h
    | some n => rw [h1, h2] at hn; cases hn
  | some n => cases h2 : getNode g' c with
    | none => rw [h1, h2] at hn; cases hn
    | some n' =>
      rw [h1, h2] at hn
      have : n.id = n'.id := by
        have := congrArg (Option.map (·.id)) hn
        simpa [blankNode] using this
      simp only [this]
      exact twins_addEdge h _ _

theorem twins_fold {α : Type} {R : α → α → Prop} {f f' : SGraph F → α → Except Err (SGraph F)}
    (hf : ∀ g g' x x', blank g = blank g' → R x x' → Twins (f g x) (f' g' x')) {l l' : List α} (hl : All₂ R l l') :
    ∀ {g g' : SGraph F}, blank g = blank g' → Twins (foldE f g l) (foldE f' g' l') := by
  induction hl with
  | nil => intro g g' h; exact Twins.ok.2 h
  | cons hx _ ih =>
    intro g g' h
    unfold foldE
    have h1 := hf g g' _ _ h hx
    generalize f g _ = r at h1
    generalize f' g' _ = r' at h1
    cases r with
    | error x => cases r' with
      | error y => exact h1
      | ok g' => cases h1
    | ok g => cases r' with
      | error y => cases h1
      | ok g' => exact ih (Twins.ok.1 h1)

theorem twins_pre {α : Type} {x : Except Err α} {k k' : α → Except Err (SGraph F)} (h : ∀ a, Twins (k a) (k' a)) : Twins (x >>= k) (x >>= k') := by
  cases x with
  | error e => rfl
  | ok a => exact h a

/-- two bones with the same name and parent, as they are written -/
def BoneTwins (v v' : JVal F) : Prop := subscript v s!!"name" = subscript v' s!!"name" ∧ dotGet v s!!"parent" = dotGet v' s!!"parent"

theorem twins_addBone {g g' : SGraph F} (h : blank g = blank g') {v v' : JVal F} (hv : BoneTwins v v') (i : Nat) :
    Twins (SpineNodes.addBone g v i) (SpineNodes.addBone g' v' i) := by
  unfold SpineNodes.addBone
  rw [hv.1, hv.2]
  exact twins_pre fun n => twins_pre fun n => (twins_addNode h _ _ _ _).bind fun g g' h => twins_pre fun p => twins_pre fun p => twins_linkFrom h _ _

theorem twins_addIfAbsent {g g' : SGraph F} (h : blank g = blank g') (i : Str) (d : Int × JVal F) (t : NType) :
    Twins (SpineNodes.addIfAbsent g i d t) (SpineNodes.addIfAbsent g' i d t) := by
  have hn := getNode_twin h i
  unfold SpineNodes.addIfAbsent
  cases h1 : getNode g i with
  | none => cases h2 : getNode g' i with
    | none => exact twins_addNode h _ _ _ _
    | some n => rw [h1, h2] at hn; cases hn
  | some n => cases h2 : getNode g' i with
    | none => rw [h1, h2] at hn; cases hn
    | some n' => exact Twins.ok.2 h

theorem twins_addAttachment (sid : Str) {g g' : SGraph F} (h : blank g = blank g') (kv : Str × JVal F) :
    Twins (SpineNodes.addAttachment sid g kv) (SpineNodes.addAttachment sid g' kv) :=
  (twins_addIfAbsent h _ _ _).bind fun g g' h => twins_pre fun im => (twins_addIfAbsent h _ _ _).bind fun g g' h =>
    (twins_addEdge h _ _).bind fun g g' h => twins_addEdge h _ _

theorem twins_addSkin (n : JVal F) (sid : Str) {g g' : SGraph F} (h : blank g = blank g') (v : JVal F) :
    Twins (SpineNodes.addSkin n sid g v) (SpineNodes.addSkin n sid g' v) := by
  unfold SpineNodes.addSkin
  refine twins_pre fun a => ?_
  split
  · refine twins_pre fun x => twins_pre fun l => ?_
    exact twins_fold (R := Eq) (fun g g' x x' h e => e ▸ twins_addAttachment sid h x) (All₂.refl (fun _ => rfl) _) h
  · exact Twins.ok.2 h

theorem twins_addSlot {g g' : SGraph F} (h : blank g = blank g') (doc doc' : JVal F)
    (hs : subscript doc s!!"skins" = subscript doc' s!!"skins") (p : JVal F × Nat) :
    Twins (SpineNodes.addSlotAndSkins doc g p) (SpineNodes.addSlotAndSkins doc' g' p) := by
  have assoc : ∀ (doc : JVal F) (g : SGraph F), SpineNodes.addSlotAndSkins doc g p =
      (do let n ← subscript p.1 s!!"name"
          let n ← fmtId n
          let g ← exec (addNode spineFactory g (.str (graphId .slot n)) ((p.2 : Int), p.1) .slot)
          let b ← dotGet p.1 s!!"bone"
          let b ← fmtId b
          let g ← SpineNodes.linkFrom g (graphId .bone b) (graphId .slot n)
          let sk ← subscript doc s!!"skins"
          let sk ← iter sk
          let m ← subscript p.1 s!!"name"
          foldE (SpineNodes.addSkin m (graphId .slot n)) g sk) := by
    intro doc g
    unfold SpineNodes.addSlotAndSkins SpineNodes.addSlot
    simp only [bind_assoc, pure_bind]
  rw [assoc, assoc, hs]
  refine twins_pre fun n => twins_pre fun n => (twins_addNode h _ _ _ _).bind fun g g' h => twins_pre fun b => twins_pre fun b =>
    (twins_linkFrom h _ _).bind fun g g' h => twins_pre fun sk => twins_pre fun sk => twins_pre fun m => ?_
  exact twins_fold (R := Eq) (fun g g' x x' h e => e ▸ twins_addSkin _ _ h x) (All₂.refl (fun _ => rfl) _) h

theorem twins_addIk {g g' : SGraph F} (h : blank g = blank g') (v : JVal F) (i : Nat) :
    Twins (SpineNodes.addIk g v i) (SpineNodes.addIk g' v i) := by
  unfold SpineNodes.addIk
  refine twins_pre fun n => twins_pre fun n => (twins_addNode h _ _ _ _).bind fun g g' h => twins_pre fun b => twins_pre fun b => ?_
  refine (twins_fold (R := Eq) (f := SpineNodes.addIkBone _) (fun g g' x x' h e => e ▸ twins_pre fun b => twins_linkTo h _ _) (All₂.refl (fun _ => rfl) _) h).bind
    fun g g' h => twins_pre fun t => ?_
  split
  · exact twins_pre fun t => twins_linkFrom h _ _
  · exact Twins.ok.2 h

theorem _root_.Spine.All₂.zipIdx {α β : Type} {R : α → β → Prop} {l : List α} {m : List β} (h : All₂ R l m) (k : Nat) :
    All₂ (fun p q => R p.1 q.1 ∧ p.2 = q.2) (l.zipIdx k) (m.zipIdx k) := by
  induction h generalizing k with
  | nil => exact .nil
  | cons h _ ih => exact .cons ⟨h, rfl⟩ (ih (k + 1))

/-- graphs of documents that differ in bones with the same names and parents -/
theorem twins_create {d d' : Dict (JVal F)} {l l' : List (JVal F)}
    (h : ∀ k ∈ [s!!"slots", s!!"ik", s!!"skins"], Dict.get? d k = Dict.get? d' k)
    (hb : (Dict.get? d s!!"bones" = none ∧ Dict.get? d' s!!"bones" = none) ∨
      (Dict.get? d s!!"bones" = some (.list l) ∧ Dict.get? d' s!!"bones" = some (.list l') ∧ All₂ BoneTwins l l')) :
    Twins (SpineNodes.create (.dict d)) (SpineNodes.create (.dict d')) := by
  have hr : ∀ {g g' : SGraph F}, blank g = blank g' →
      Twins (do let ss ← SpineNodes.docList (.dict d) s!!"slots"
                let g ← foldE (SpineNodes.addSlotAndSkins (.dict d)) g ss.zipIdx
                let is ← SpineNodes.docList (.dict d) s!!"ik"
                foldE (fun g (p : JVal F × Nat) => SpineNodes.addIk g p.1 p.2) g is.zipIdx)
        (do let ss ← SpineNodes.docList (.dict d') s!!"slots"
            let g ← foldE (SpineNodes.addSlotAndSkins (.dict d')) g' ss.zipIdx
            let is ← SpineNodes.docList (.dict d') s!!"ik"
            foldE (fun g (p : JVal F × Nat) => SpineNodes.addIk g p.1 p.2) g is.zipIdx) := by
    intro g g' hg
    have e1 : ∀ k ∈ [s!!"slots", s!!"ik"], SpineNodes.docList (.dict d) k = SpineNodes.docList (.dict d') k := by
      intro k hk
      simp only [SpineNodes.docList, getIter]
      rw [h k (by
        simp only [List.mem_cons, List.not_mem_nil, or_false] at hk ⊢
        exact hk.elim .inl (fun h => .inr (.inl h)))]
    rw [e1 s!!"slots" (by simp), e1 s!!"ik" (by simp)]
    refine twins_pre fun ss => ?_
    have hk : subscript (.dict d) s!!"skins" = subscript (.dict d') s!!"skins" := by
      simp only [subscript, getItem]
      rw [h s!!"skins" (by simp)]
    exact (twins_fold (R := Eq) (fun g g' x x' h e => e ▸ twins_addSlot h _ _ hk x) (All₂.refl (fun _ => rfl) _) hg).bind fun g g' h =>
      twins_pre fun is => twins_fold (R := Eq) (fun g g' x x' h e => e ▸ twins_addIk h _ _) (All₂.refl (fun _ => rfl) _) h
  unfold SpineNodes.create
  rcases hb with ⟨h1, h2⟩ | ⟨h1, h2, hl⟩
  · simp only [subscript, getItem, h1, h2]
    rfl
  · simp only [subscript, getItem, h1, h2, iter]
    exact (twins_fold (fun g g' x x' hg hx => by
      rw [hx.2]
      exact twins_addBone hg hx.1 _) (hl.zipIdx 0) (g := Graph.empty) (g' := Graph.empty) rfl).bind fun g g' hg => hr hg

/-- the document with other bones -/
def withBones (bs : List (Bone F)) (e : Editor F) : Editor F := e.withData { e.data with bones := bs }

theorem removeSkin_bones' (bs : List (Bone F)) (n : Str) (a : AnimData F) :
    removeSkin n { a with bones := bs } = ((removeSkin n a).1, { (removeSkin n a).2 with bones := bs }) := by
  unfold removeSkin
  have hg : getSkin { a with bones := bs } n = getSkin a n := rfl
  rw [hg]
  cases getSkin a n with
  | none => rfl
  | some gone =>
    simp only
    cases (mapMut (relinkSkin gone n) a.skins).1 with
    | error e => rfl
    | ok _ =>
      simp only
      cases removedImages gone with
      | error e => rfl
      | ok r => rfl

theorem removeSkins_bones' (bs : List (Bone F)) (l : List Str) (a : AnimData F) :
    removeSkins l { a with bones := bs } = ((removeSkins l a).1, { (removeSkins l a).2 with bones := bs }) := by
  induction l generalizing a with
  | nil => rfl
  | cons n l ih =>
    simp only [removeSkins]
    rw [removeSkin_bones']
    generalize removeSkin n a = q
    obtain ⟨o, a1⟩ := q
    cases o with
    | error x => rfl
    | ok v =>
      obtain ⟨i, r⟩ := v
      simp only
      rw [ih]
      generalize removeSkins l a1 = q
      obtain ⟨o, a2⟩ := q
      cases o with
      | error x => rfl
      | ok v => rfl

/-- name and parent of a bone -/
def joint (b : Bone F) : Str × Option Str := (b.name, b.parent)

/-- names and parents of bones, in order -/
def boneTree (l : List (Bone F)) : List (Str × Option Str) := l.map joint

theorem twins_bones {s : SpineDoc F} {bs : List (Bone F)} (h1 : ∀ b ∈ s.data.bones, Bone.Good b) (h2 : ∀ b ∈ bs, Bone.Good b)
    (h : boneTree bs = boneTree s.data.bones) :
    Twins (SpineNodes.create s.toJson) (SpineNodes.create { s with data := { s.data with bones := bs } }.toJson) := by
  have hl : ∀ (l m : List (Bone F)), (∀ b ∈ l, Bone.Good b) → (∀ b ∈ m, Bone.Good b) → boneTree m = boneTree l →
      All₂ BoneTwins (l.map (·.toJson s.version.is38)) (m.map (·.toJson s.version.is38)) := by
    intro l
    induction l with
    | nil =>
      intro m _ _ h
      cases m with
      | nil => exact .nil
      | cons _ _ => cases h
    | cons b l ih =>
      intro m h1 h2 h
      cases m with
      | nil => cases h
      | cons c m =>
        simp only [boneTree, joint, List.map_cons, List.cons.injEq, Prod.mk.injEq] at h
        obtain ⟨d, hd, n1, p1⟩ := Bone.get?_toJson s.version.is38 b (h1 b (by simp))
        obtain ⟨d', hd', n2, p2⟩ := Bone.get?_toJson s.version.is38 c (h2 c (by simp))
        refine .cons ⟨?_, ?_⟩ (ih m (fun b hb => h1 b (by simp [hb])) (fun b hb => h2 b (by simp [hb])) h.2)
        · simp only [hd, hd', subscript, getItem, n1, n2, h.1.1]
        · simp only [hd, hd', dotGet, p1, p2, h.1.2]
  unfold SpineDoc.toJson
  refine twins_create (l := s.data.bones.map (·.toJson s.version.is38)) (l' := bs.map (·.toJson s.version.is38)) ?_ ?_
  · intro k hk
    have hk' : s!!"bones" ≠ k := by rintro rfl; revert hk; decide
    have hj : ∀ l : List (Bone F), Dict.get? (jl s!!"bones" (·.toJson s.version.is38) l) k = none := by
      intro l
      unfold jl
      split
      · rfl
      · simp [Dict.get?, hk']
    rw [Dict.get?_set, Dict.get?_set]
    simp only [AnimData.toJson, List.append_assoc]
    have hx : ∀ (l : List (Bone F)) (r : Dict (JVal F)), Dict.get? (jl s!!"bones" (·.toJson s.version.is38) l ++ r) k = Dict.get? r k := by
      intro l r; rw [get?_append, hj]
    rw [hx, hx]
  · have hsk : s!!"bones" ≠ s!!"skeleton" := by decide
    have hn : s!!"skins" ≠ s!!"bones" := by decide
    have hjl : ∀ {α : Type} {k : Str} (f : α → JVal F) (l : List α), k ≠ s!!"bones" → Dict.get? (jl k f l) s!!"bones" = none := by
      intro α k f l hk
      unfold jl
      split
      · rfl
      · simp [Dict.get?, hk]
    have hrest : ∀ a : AnimData F, Dict.get? (jl s!!"slots" (·.toJson s.version.is38) a.slots ++
        ([(s!!"skins", .list (a.skins.map (·.toJson s.version.is38)))] ++
        (jd s!!"events" (eventsCls.toJson s.version.is38) a.events ++ (jl s!!"ik" (ikCls.toJson s.version.is38) a.ik ++
        (jl s!!"transform" (transformCls.toJson s.version.is38) a.transform ++ (jl s!!"path" (pathCls.toJson s.version.is38) a.path ++
        jd s!!"animations" (·.toJson s.version.is38) a.animations)))))) s!!"bones" = none := by
      intro a
      rw [get?_append, hjl _ _ (by decide), get?_append]
      simp only [Dict.get?, hn, if_false]
      rw [get?_append, get?_jd_ne (by decide), get?_append, hjl _ _ (by decide), get?_append, hjl _ _ (by decide), get?_append, hjl _ _ (by decide),
        get?_jd_ne (by decide)]
    simp only [Dict.get?_set, hsk, if_false, AnimData.toJson, List.append_assoc]
    have hlen : bs.length = s.data.bones.length := by
      have := congrArg List.length h
      simpa [boneTree] using this
    have key : ∀ (l : List (Bone F)) (r : Dict (JVal F)), Dict.get? r s!!"bones" = none →
        Dict.get? (jl s!!"bones" (·.toJson s.version.is38) l ++ r) s!!"bones" =
          if l = [] then none else some (.list (l.map (·.toJson s.version.is38))) := by
      intro l r hr
      rw [get?_append]
      cases l with
      | nil => exact hr
      | cons b l => simp [jl, Dict.get?]
    rw [key _ _ (hrest s.data), key _ _ (hrest { s.data with bones := bs })]
    by_cases he : s.data.bones = []
    · left
      have : bs = [] := by rw [he] at hlen; simpa using hlen
      simp [he, this]
    · right
      have : bs ≠ [] := by rintro rfl; exact he (by simpa using hlen.symm)
      simp only [he, this, if_false, true_and]
      exact hl _ _ h1 h2 h

theorem isNone_twin {g g' : SGraph F} (h : blank g = blank g') (i : Str) : (getNode g i).isNone = (getNode g' i).isNone := by
  have := congrArg Option.isNone (getNode_twin h i)
  simpa using this

/-- erasing skins from an editor with other bones: the same outcome, document and images; the graph has the other bones -/
theorem eraseSkins_bones {bs : List (Bone F)} (l : List Str) {e : Editor F} (h1 : ∀ b ∈ e.data.bones, Bone.Good b) (h2 : ∀ b ∈ bs, Bone.Good b)
    (h : boneTree bs = boneTree e.data.bones) :
    (eraseSkins l true (e.withBones bs)).1 = (eraseSkins l true e).1 ∧
    (eraseSkins l true (e.withBones bs)).2.doc = ((eraseSkins l true e).2.withBones bs).doc ∧
    (eraseSkins l true (e.withBones bs)).2.images = (eraseSkins l true e).2.images := by
  unfold eraseSkins
  have hr : removeSkins l (e.withBones bs).data = _ := removeSkins_bones' bs l e.data
  have hb := (removeSkins_bones l e.data).1
  rw [hr]
  generalize removeSkins l e.data = q at hb
  obtain ⟨o, a⟩ := q
  cases o with
  | error x => exact ⟨rfl, rfl, rfl⟩
  | ok v =>
    obtain ⟨i, r⟩ := v
    simp only at hb ⊢
    have ht : Twins (SpineNodes.create (e.withData a).toJson) (SpineNodes.create ((e.withBones bs).withData { a with bones := bs }).toJson) :=
      twins_bones (s := { e.doc with data := a }) (by rw [show ({ e.doc with data := a } : SpineDoc F).data.bones = e.data.bones from hb]; exact h1) h2
        (by rw [h]; exact congrArg boneTree hb.symm)
    generalize SpineNodes.create (e.withData a).toJson = c at ht ⊢
    generalize SpineNodes.create ((e.withBones bs).withData { a with bones := bs }).toJson = c' at ht ⊢
    cases c with
    | error x => cases c' with
      | error y =>
        cases ht
        exact ⟨rfl, rfl, rfl⟩
      | ok g' => cases ht
    | ok g => cases c' with
      | error y => cases ht
      | ok g' =>
        have hg := Twins.ok.1 ht
        have hf : ∀ i : List (Option Str), i.filter (fun i => (getNode g' (imageId i)).isNone) = i.filter (fun i => (getNode g (imageId i)).isNone) := by
          intro i
          congr 1
          funext x
          exact (isNone_twin hg _).symm
        simp only [cleanUnless, if_true, hf]
        exact ⟨trivial, rfl, rfl⟩

theorem scale_tree (sx sy : Num F) (e : Editor F) : boneTree (scale sx sy e).2.data.bones = boneTree e.data.bones := by
  have hs : ∀ b : Bone F, joint (b.scale sx sy).2 = joint b := by
    intro b
    unfold Bone.scale
    split
    · rfl
    · rfl
    · split
      · rfl
      · simp only
        split <;> rfl
  have h1 : boneTree (mapMut (fun b => if noInherit b then b.scale sx sy else (.ok (), b)) e.data.bones).2 = boneTree e.data.bones :=
    ((mapMut_all (R := fun b b' => joint b' = joint b) (fun b => if noInherit b then b.scale sx sy else (.ok (), b)) e.data.bones (by
      intro b _; split
      · exact hs b
      · rfl) (fun _ => rfl)).map_eq (f := joint) (g := joint) (fun _ _ h => h.symm)).symm
  have h2 : ∀ l : List (Bone F), boneTree (onFirst s!!"root" (Bone.scale sx sy) l).2 = boneTree l := by
    intro l
    induction l with
    | nil => rfl
    | cons b l ih =>
      unfold onFirst
      split
      · simp [boneTree, hs]
      · simpa [boneTree] using ih
  unfold scale
  split
  · rename_i x bs hbs; rw [hbs] at h1; exact h1
  · rename_i x bs hbs; rw [hbs] at h1; exact (h2 bs).trans h1

/-- what `scale_animation` does depends on the bones only -/
theorem scale_congr (sx sy : Num F) {e e' : Editor F} (h : e'.data.bones = e.data.bones) :
    (scale sx sy e').1 = (scale sx sy e).1 ∧ (scale sx sy e').2 = e'.withBones (scale sx sy e).2.data.bones := by
  unfold scale
  rw [h]
  generalize mapMut (fun b => if noInherit b then b.scale sx sy else (.ok (), b)) e.data.bones = q
  obtain ⟨o, bs⟩ := q
  cases o <;> exact ⟨rfl, rfl⟩

end Editor
end Spine
