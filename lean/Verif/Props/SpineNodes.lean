import Verif.Lemmas.BuildRead
import Verif.Lemmas.Doomed
import Verif.Spec.GraphDoc
import Verif.Spec.Concrete
/- C14-C19: ids, building and serialising the spine graph, recursive removals. -/
set_option linter.unusedSectionVars false
namespace Spine
open JVal Graph SpineNodes Container
variable {F : Type}

/-! ## C14 -/

/-- C14: two elements get the same graph id only if they have the same type and the same name. -/
theorem c14_graph_ids_apart (t u : NType) (a b : Str) : graphId t a = graphId u b ↔ t = u ∧ a = b :=
  ⟨graphId_inj, by rintro ⟨rfl, rfl⟩; rfl⟩

/-- names that end in a suffix stay apart -/
example : graphId .bone s!!"x_SLOT" ≠ graphId .slot s!!"x" ∧ graphId .bone s!!"" ≠ graphId .bone s!!"_BONE" := by decide

/-! ## C15 -/

/-- C15 is false of the code: every occurrence of the suffix is removed, not just the one that was appended. -/
theorem c15_base_id_counterexample : ¬ ∀ (t : NType) (s : Str), baseId t (graphId t s) = s := by
  intro h
  exact absurd (h .slot s!!"my_SLOT_1") (by decide +kernel)

/-- C15 (partial): the original name comes back exactly when it does not itself contain the suffix.
Missing: names that contain `_SLOT`, `_BONE`, … are reported truncated (see `c15_base_id_counterexample`). -/
theorem c15_base_id_partial (t : NType) (s : Str) : baseId t (graphId t s) = s ↔ ¬ ('_' :: t.name) <:+: s :=
  baseId_eq_iff t s

example : baseId .slot (graphId .slot s!!"left_arm") = s!!"left_arm" := by decide +kernel
example : ¬ ('_' :: NType.slot.name) <:+: s!!"left_SLO" := by
  rw [← c15_base_id_partial]; decide +kernel

/-! ## C16 -/
variable [PyRt F]

/-- what is iterated for a key of the document: nothing when the key is missing -/
def DocEntries (d : Dict (JVal F)) (k : Str) (l : List (JVal F)) : Prop :=
  (Dict.get? d k = some (.list l)) ∨ (Dict.get? d k = none ∧ l = [])

theorem read_lists {d : Dict (JVal F)} {sh : GShape F} (h : GShape.read (.dict d) = .ok sh) {bs ss is : List (JVal F)}
    (hb : DocEntries d s!!"bones" bs) (hs : DocEntries d s!!"slots" ss) (hi : DocEntries d s!!"ik" is) :
    sh.bones.map (·.v) = bs ∧ sh.slots.map (·.v) = ss ∧ sh.iks.map (·.v) = is := by
  have key : ∀ {α : Type} (f : JVal F → Except Err α) (v : α → JVal F) (_ : ∀ x y, f x = .ok y → v y = x) (l : List (JVal F)) (r : List α),
      mapE f l = .ok r → r.map v = l := by
    intro α f v hf l
    induction l with
    | nil => intro r h; simp [mapE] at h; subst h; rfl
    | cons x l ih =>
      intro r h
      unfold mapE at h
      cases hx : f x with
      | error e => rw [hx] at h; cases h
      | ok y =>
        rw [hx] at h
        simp only at h
        cases hl : mapE f l with
        | error e => rw [hl] at h; cases h
        | ok r' => rw [hl] at h; injection h with h; subst h; simp [hf _ _ hx, ih _ hl]
  have list : ∀ {k : Str} {l l' : List (JVal F)}, DocEntries d k l → docList (.dict d) k = .ok l' → l' = l := by
    intro k l l' h1 h2
    rcases h1 with h1 | ⟨h1, rfl⟩ <;> simp [docList, getIter, h1, iter] at h2 <;> simp [h2]
  simp only [GShape.read, bind_ok_iff, pure_ok_iff] at h
  obtain ⟨b0, h1, b1, h2, b2, h3, s1, h4, s2, h5, i1, h6, i2, h7, rfl⟩ := h
  refine ⟨?_, ?_, ?_⟩
  · have e : b1 = bs := by
      rcases hb with hb | ⟨hb, rfl⟩
      · simp [subscript, getItem, hb] at h1; subst h1; simp [iter] at h2; exact h2.symm
      · simp [subscript, getItem, hb] at h1
    subst e
    refine key GShape.readBone (·.v) ?_ _ _ h3
    intro x y hy
    simp only [GShape.readBone, bind_ok_iff, pure_ok_iff] at hy
    obtain ⟨_, _, _, _, rfl⟩ := hy
    rfl
  · have e := list hs h4
    subst e
    refine key (GShape.readSlot (.dict d)) (·.v) ?_ _ _ h5
    intro x y hy
    simp only [GShape.readSlot, bind_ok_iff, pure_ok_iff] at hy
    obtain ⟨_, _, _, _, _, _, _, _, _, _, _, _, rfl⟩ := hy
    rfl
  · have e := list hi h6
    subst e
    refine key GShape.readIk (·.v) ?_ _ _ h7
    intro x y hy
    simp only [GShape.readIk, bind_ok_iff, pure_ok_iff] at hy
    obtain ⟨_, _, _, _, _, _, rfl⟩ := hy
    rfl

/-- C16: serialising the graph of a document returns its bones, slots and ik lists, in order and unchanged. -/
theorem c16_graph_round_trip (d : Dict (JVal F)) (g : SGraph F) (h : create (.dict d) = .ok g) (bs ss is : List (JVal F))
    (hb : DocEntries d s!!"bones" bs) (hs : DocEntries d s!!"slots" ss) (hi : DocEntries d s!!"ik" is) :
    toJsonData g = .ok ⟨bs, ss, is⟩ := by
  obtain ⟨sh, h1, h2⟩ := GShape.create_built h
  obtain ⟨e1, e2, e3⟩ := read_lists h1 hb hs hi
  rw [h2.toJsonData, e1, e2, e3]

/-- C16: a document from which a graph can be built is a dict. -/
theorem c16_document_is_dict (v : JVal F) (g : SGraph F) (h : create v = .ok g) : ∃ d, v = .dict d := by
  cases v with
  | dict d => exact ⟨d, rfl⟩
  | _ => simp [create, subscript, bind, Except.bind] at h

/-! ## C17 -/

/-- the reference a bone, slot or ik makes: an absent name is formatted as "None" (spine_nodes.py 190, 214) -/
def refName (o : Option Str) : Str := o.getD s!!"None"

theorem optStr_fmt {d : Dict (JVal F)} {k : Str} {o : Option Str} (h : OptStr d k o) :
    Plan.optId (.dict d) k = .ok (refName o) := by
  cases o with
  | some s => simp [OptStr] at h; simp [Plan.optId, dotGet, h, Except.bind, fmtId, refName]
  | none => rcases h with h | h <;> simp [Plan.optId, dotGet, h, Except.bind, fmtId, refName]

theorem optStr_get {d : Dict (JVal F)} {k : Str} {o : Option Str} (h : OptStr d k o) :
    dotGet (.dict d) k = .ok (o.elim .null .str) := by
  cases o with
  | some s => simp [OptStr] at h; simp [dotGet, h]
  | none => rcases h with h | h <;> simp [dotGet, h]

theorem mapE_map_ok {α β γ : Type} (f : β → Except Err γ) (r : α → β) (v : α → γ) (l : List α) (h : ∀ a ∈ l, f (r a) = .ok (v a)) :
    mapE f (l.map r) = .ok (l.map v) := by
  induction l with
  | nil => rfl
  | cons a l ih => simp [mapE, h a (by simp), ih (fun x hx => h x (by simp [hx]))]

/-- attachments of all skins for one slot, in order -/
def DocV.atts (d : DocV F) (n : Str) : List (AttV F) := d.skins.flatMap (fun s => s.forSlot n)

/-- the part of a well-typed document the graph is built from -/
def DocV.shape (d : DocV F) : GShape F where
  bones := d.bones.map (fun b => ⟨b.name, refName b.parent, .dict b.raw⟩)
  slots := d.slots.map (fun b => ⟨b.name, refName b.bone, .dict b.raw, (d.atts b.name).map (fun a => (a.key, a.image, .dict a.raw))⟩)
  iks := d.iks.map (fun b => ⟨b.name, b.bones, b.target.filter (· ≠ []), .dict b.raw⟩)

theorem readAtt_view (a : AttV F) : GShape.readAtt (a.key, (.dict a.raw : JVal F)) = .ok (a.key, a.image, .dict a.raw) := by
  unfold GShape.readAtt imageName
  rw [optStr_get a.hpath, optStr_get a.hname]
  unfold AttV.image
  obtain ⟨key, raw, path, name, hp, hn⟩ := a
  rcases path with _ | (_ | ⟨c, p⟩) <;> rcases name with _ | (_ | ⟨c', n⟩) <;>
    simp [truthy, fmtId, bind, Except.bind, pure, Except.pure]

theorem readSkin_view (s : SkinV F) (n : Str) : GShape.readSkin (.str n) (.dict s.raw) =
    .ok ((s.forSlot n).map (fun a => (a.key, a.image, .dict a.raw))) := by
  unfold GShape.readSkin SkinV.forSlot
  obtain ⟨raw, entries, he⟩ := s
  simp only [dotGet, he, Option.getD_some]
  have hg := get?_map_snd entries (fun l : List (AttV F) => (.dict (l.map (fun a => (a.key, .dict a.raw))) : JVal F)) n
  cases entries with
  | nil => simp [truthy, bind, Except.bind, pure, Except.pure, Dict.get?]
  | cons e r =>
    have ht : truthy (.dict ((e :: r).map (fun p => (p.1, (.dict (p.2.map (fun a => (a.key, .dict a.raw))) : JVal F))))) = true := by
      simp [truthy]
    simp only [bind, Except.bind, ht, if_true, skinEntry, hg]
    cases Dict.get? (e :: r) n with
    | none => simp [dictItems, mapE]
    | some l =>
      simp only [Option.map_some, Option.getD_some, dictItems]
      exact mapE_map_ok GShape.readAtt _ _ l (fun a _ => readAtt_view a)

theorem mapE_str (l : List Str) : mapE fmtId (l.map (.str : Str → JVal F)) = .ok l := by
  have := mapE_map_ok fmtId (.str : Str → JVal F) (fun s => s) l (fun _ _ => rfl)
  rwa [List.map_id'] at this

theorem read_view (d : DocV F) : GShape.read (.dict d.raw) = .ok d.shape := by
  have dl : ∀ {k : Str} {α : Type} {l : List α} {r : α → JVal F},
      (Dict.get? d.raw k = some (.list (l.map r)) ∨ (Dict.get? d.raw k = none ∧ l = [])) → docList (.dict d.raw) k = .ok (l.map r) := by
    intro k α l r h
    rcases h with h | ⟨h, rfl⟩ <;> simp [docList, getIter, h, iter]
  have hn : ∀ (raw : Dict (JVal F)) (n : Str), Dict.get? raw s!!"name" = some (.str n) →
      Plan.nameOf (.dict raw) = .ok n ∧ subscript (.dict raw) s!!"name" = .ok (.str n) := by
    intro raw n h; simp [Plan.nameOf, subscript, getItem, h, Except.bind, fmtId]
  simp only [GShape.read, bind_ok_iff, pure_ok_iff]
  have hb : subscript (.dict d.raw) s!!"bones" = .ok (.list (d.bones.map (fun b => .dict b.raw))) := by
    simp only [subscript, getItem, d.hbones]
  have hsk : subscript (.dict d.raw) s!!"skins" = .ok (.list (d.skins.map (fun b => .dict b.raw))) := by
    simp only [subscript, getItem, d.hskins]
  refine ⟨_, hb, _, rfl, d.shape.bones, ?_, _, dl d.hslots, d.shape.slots, ?_, _, dl d.hiks,
    d.shape.iks, ?_, rfl⟩
  · refine mapE_map_ok _ _ _ _ ?_
    intro b _
    simp [GShape.readBone, (hn _ _ b.hname).1, optStr_fmt b.hparent, bind, Except.bind, pure, Except.pure]
  · refine mapE_map_ok _ _ _ _ ?_
    intro b _
    have hs : mapE (GShape.readSkin (.str b.name)) (d.skins.map (fun s => (.dict s.raw : JVal F))) = _ :=
      mapE_map_ok _ _ _ _ (fun s _ => readSkin_view s b.name)
    simp only [GShape.readSlot, bind_ok_iff, pure_ok_iff]
    refine ⟨_, (hn _ _ b.hname).1, _, optStr_fmt b.hbone, _, (hn _ _ b.hname).2, _, hsk,
      _, rfl, _, hs, ?_⟩
    simp [DocV.atts, List.flatMap_def, List.map_flatten, List.map_map, Function.comp_def]
  · refine mapE_map_ok _ _ _ _ ?_
    intro b _
    simp only [GShape.readIk, bind_ok_iff, pure_ok_iff]
    refine ⟨_, (hn _ _ b.hname).1, b.bones, ?_, b.target.filter (· ≠ []), ?_, rfl⟩
    · simp only [Plan.ikBones, bind_ok_iff]
      have hbs : subscript (.dict b.raw) s!!"bones" = .ok (.list (b.bones.map .str)) := by
        simp only [subscript, getItem, b.hbones]
      exact ⟨_, hbs, _, rfl, mapE_str b.bones⟩
    · unfold GShape.readTarget
      rw [optStr_get b.htarget]
      rcases b.target with _ | (_ | ⟨c, t⟩) <;> rfl

/-- C17: building succeeds exactly when the names of bones, slots and iks are different and no bone refers to itself
(a bone without parent refers to "None"). -/
theorem c17_build_iff (d : DocV F) : (∃ g, create (.dict d.raw) = .ok g) ↔
    (d.bones.map (·.name)).Nodup ∧ (d.slots.map (·.name)).Nodup ∧ (d.iks.map (·.name)).Nodup ∧
    ∀ b ∈ d.bones, refName b.parent ≠ b.name := by
  constructor
  · rintro ⟨g, h⟩
    obtain ⟨sh, h1, h2⟩ := GShape.create_built h
    rw [read_view] at h1
    injection h1 with h1; subst h1
    have ok := h2.ok
    refine ⟨?_, ?_, ?_, ?_⟩
    · simpa [DocV.shape, List.map_map, Function.comp_def] using ok.bones
    · simpa [DocV.shape, List.map_map, Function.comp_def] using ok.slots
    · simpa [DocV.shape, List.map_map, Function.comp_def] using ok.iks
    · intro b hb
      exact ok.parents ⟨b.name, refName b.parent, .dict b.raw⟩ (List.mem_map.2 ⟨b, hb, rfl⟩)
  · rintro ⟨h1, h2, h3, h4⟩
    obtain ⟨g, hg, _⟩ := GShape.create_ok (read_view d) ⟨by simpa [DocV.shape, List.map_map, Function.comp_def] using h1,
      by simpa [DocV.shape, List.map_map, Function.comp_def] using h2,
      by simpa [DocV.shape, List.map_map, Function.comp_def] using h3,
      by
        intro b hb
        obtain ⟨c, hc, rfl⟩ := List.mem_map.1 hb
        exact h4 c hc⟩
    exact ⟨g, hg⟩

/-- C17 (partial): with no bone called "None", building succeeds exactly on documents without duplicate names in which no
bone is its own parent.  Missing: the hypothesis is needed, see `c17_none_counterexample`. -/
theorem c17_well_formed_partial (d : DocV F) (hnone : s!!"None" ∉ d.bones.map (·.name)) :
    (∃ g, create (.dict d.raw) = .ok g) ↔
    (d.bones.map (·.name)).Nodup ∧ (d.slots.map (·.name)).Nodup ∧ (d.iks.map (·.name)).Nodup ∧
    ∀ b ∈ d.bones, b.parent ≠ some b.name := by
  rw [c17_build_iff]
  have : (∀ b ∈ d.bones, refName b.parent ≠ b.name) ↔ ∀ b ∈ d.bones, b.parent ≠ some b.name := by
    constructor
    · intro h b hb e
      exact h b hb (by rw [e]; rfl)
    · intro h b hb e
      cases hp : b.parent with
      | none =>
        rw [hp] at e
        exact hnone (List.mem_map.2 ⟨b, hb, e.symm⟩)
      | some p =>
        rw [hp] at e
        exact h b hb (by rw [hp]; exact congrArg some e)
  rw [this]

/-- C17: the edges of the graph of a document, all of them (`GShape.Link` lists the six kinds). -/
theorem c17_edges (d : DocV F) (g : SGraph F) (h : create (.dict d.raw) = .ok g) (p c : Str) :
    Edge g p c ↔ GShape.Link d.shape p c := by
  obtain ⟨sh, h1, h2⟩ := GShape.create_built h
  rw [read_view] at h1
  injection h1 with h1; subst h1
  exact h2.edge p c

/-- C17: every attachment of every skin entry of a slot is linked below the slot, and its image below the attachment. -/
theorem c17_attachment_edges (d : DocV F) (g : SGraph F) (h : create (.dict d.raw) = .ok g) (s : SlotV F) (hs : s ∈ d.slots)
    (sk : SkinV F) (hsk : sk ∈ d.skins) (a : AttV F) (ha : a ∈ sk.forSlot s.name) :
    Edge g (graphId .slot s.name) (graphId .attachment a.key) ∧ Edge g (graphId .attachment a.key) (graphId .image a.image) := by
  rw [c17_edges d g h, c17_edges d g h]
  have hm : (⟨s.name, refName s.bone, .dict s.raw, (d.atts s.name).map (fun a => (a.key, a.image, .dict a.raw))⟩ : GSlot F) ∈ d.shape.slots :=
    List.mem_map.2 ⟨s, hs, rfl⟩
  have ham : (a.key, a.image, (.dict a.raw : JVal F)) ∈ (d.atts s.name).map (fun a => (a.key, a.image, .dict a.raw)) :=
    List.mem_map.2 ⟨a, List.mem_flatMap.2 ⟨sk, hsk, ha⟩, rfl⟩
  exact ⟨GShape.Link.att hm ham, GShape.Link.image hm ham⟩

/-- C17: there is no other edge from a slot. -/
theorem c17_slot_edges_only (d : DocV F) (g : SGraph F) (h : create (.dict d.raw) = .ok g) (n c : Str)
    (he : Edge g (graphId .slot n) c) : ∃ s ∈ d.slots, s.name = n ∧ ∃ sk ∈ d.skins, ∃ a ∈ sk.forSlot n, c = graphId .attachment a.key := by
  rw [c17_edges d g h] at he
  generalize hx : graphId .slot n = x at he
  cases he with
  | @att s a hs ha =>
    have := (graphId_inj hx).2
    obtain ⟨sv, hsv, rfl⟩ := List.mem_map.1 hs
    obtain ⟨av, hav, rfl⟩ := List.mem_map.1 ha
    obtain ⟨sk, hsk, hav⟩ := List.mem_flatMap.1 hav
    simp only at this hav
    subst this
    exact ⟨sv, hsv, rfl, sk, hsk, av, hav, rfl⟩
  | _ => cases (graphId_inj hx).1

/-- C17: the nodes of the graph of a document, by type. -/
theorem c17_nodes (d : DocV F) (g : SGraph F) (h : create (.dict d.raw) = .ok g) (n : Str) :
    (HasNode g (graphId .bone n) ↔ n ∈ d.bones.map (·.name)) ∧ (HasNode g (graphId .slot n) ↔ n ∈ d.slots.map (·.name)) ∧
    (HasNode g (graphId .ik n) ↔ n ∈ d.iks.map (·.name)) ∧
    (HasNode g (graphId .attachment n) ↔ ∃ s ∈ d.slots, ∃ a ∈ d.atts s.name, a.key = n) ∧
    (HasNode g (graphId .image n) ↔ ∃ s ∈ d.slots, ∃ a ∈ d.atts s.name, a.image = n) := by
  obtain ⟨sh, h1, h2⟩ := GShape.create_built h
  rw [read_view] at h1
  injection h1 with h1; subst h1
  have ex : ∀ {α β : Type} (l : List α) (f : α → β) (p : β → Prop), (∃ b ∈ l.map f, p b) ↔ ∃ a ∈ l, p (f a) := by
    intro α β l f p
    constructor
    · rintro ⟨b, hb, hp⟩; obtain ⟨a, ha, rfl⟩ := List.mem_map.1 hb; exact ⟨a, ha, hp⟩
    · rintro ⟨a, ha, hp⟩; exact ⟨f a, List.mem_map.2 ⟨a, ha, rfl⟩, hp⟩
  refine ⟨?_, ?_, ?_, ?_, ?_⟩
  · rw [h2.has_bone, List.mem_map]; exact ex _ _ _
  · rw [h2.has_slot, List.mem_map]; exact ex _ _ _
  · rw [h2.has_ik, List.mem_map]; exact ex _ _ _
  · rw [h2.has_att]
    refine (ex _ _ _).trans (exists_congr fun s => and_congr_right fun _ => ex _ _ _)
  · rw [h2.has_image]
    refine (ex _ _ _).trans (exists_congr fun s => and_congr_right fun _ => ex _ _ _)

/-! ### Examples for C16 and C17 -/
namespace Ex17

def bone (n : Str) (p : Option Str) : Dict (JVal Rat) :=
  (s!!"name", .str n) :: (match p with | some p => [(s!!"parent", .str p)] | none => [])

def slot (n b : Str) : Dict (JVal Rat) := [(s!!"name", .str n), (s!!"bone", .str b)]

def doc (bs : List (Dict (JVal Rat))) : Dict (JVal Rat) :=
  [(s!!"bones", .list (bs.map .dict)), (s!!"slots", .list [.dict (slot s!!"body" s!!"root")]),
   (s!!"skins", .list [.dict [(s!!"attachments", .dict [(s!!"body", .dict [(s!!"img", .dict [(s!!"path", .str s!!"p/img")])])])]])]

def viewB (n : Str) (p : Option Str) : BoneV Rat := ⟨bone n p, n, p, rfl, by cases p <;> simp [OptStr, bone, Dict.get?]⟩

/-- a document with two bones, a slot and an attachment -/
def view (bs : List (Str × Option Str)) : DocV Rat where
  raw := doc (bs.map (fun b => bone b.1 b.2))
  bones := bs.map (fun b => viewB b.1 b.2)
  slots := [⟨slot s!!"body" s!!"root", s!!"body", some s!!"root", rfl, rfl⟩]
  iks := []
  skins := [⟨[(s!!"attachments", .dict [(s!!"body", .dict [(s!!"img", .dict [(s!!"path", .str s!!"p/img")])])])],
    [(s!!"body", [⟨s!!"img", [(s!!"path", .str s!!"p/img")], some s!!"p/img", none, rfl, .inl rfl⟩])], rfl⟩]
  hbones := by simp [doc, Dict.get?, viewB, List.map_map, Function.comp_def]
  hslots := .inl rfl
  hiks := .inr ⟨rfl, rfl⟩
  hskins := rfl

/-- the conditions of C17 hold for a real document, and the graph has the expected edges -/
example : (match create (.dict (view [(s!!"root", none), (s!!"arm", some s!!"root")]).raw) with
    | .ok g => decide (Edge g s!!"body_SLOT" s!!"img_ATTACHMENT" ∧ Edge g s!!"img_ATTACHMENT" s!!"p/img_IMAGE" ∧
      Edge g s!!"root_BONE" s!!"arm_BONE" ∧ Edge g s!!"root_BONE" s!!"body_SLOT" ∧ ¬ Edge g s!!"arm_BONE" s!!"root_BONE")
    | .error _ => false) = true := by decide +kernel

/-- a parent that comes later in the list does not become a parent in the graph -/
example : (match create (.dict (view [(s!!"arm", some s!!"root"), (s!!"root", none)]).raw) with
    | .ok g => decide (¬ Edge g s!!"root_BONE" s!!"arm_BONE")
    | .error _ => false) = true := by decide +kernel

end Ex17

/-- C17 as stated is false of the code: a parentless bone called "None" is rejected. -/
theorem c17_none_counterexample : ∃ d : DocV Rat, (d.bones.map (·.name)).Nodup ∧ (d.slots.map (·.name)).Nodup ∧
    (d.iks.map (·.name)).Nodup ∧ (∀ b ∈ d.bones, b.parent ≠ some b.name) ∧ create (.dict d.raw) = .error .value := by
  refine ⟨Ex17.view [(s!!"None", none)], ?_, ?_, ?_, ?_, ?_⟩
  · decide +kernel
  · decide +kernel
  · decide +kernel
  · intro b hb
    simp only [Ex17.view, List.map_cons, List.map_nil, List.mem_cons, List.not_mem_nil, or_false] at hb
    subst hb; decide +kernel
  · rfl

/-! ## C18, C19 -/
omit [PyRt F]
variable {T D : Type} [DecidableEq T]

/-- C18: recursive leaf removal never fails and removes exactly the nodes from which only nodes of the type, and no cycle,
can be reached; everything else stays as it was; no childless node of the type is left. -/
theorem c18_remove_leafs (fac : Factory T) (ops : List (Op T D)) (base : Str → Str) (t : T) :
    ∃ (l : List Str) (h : Graph T D), removeLeafsOfType base t (run fac ops) = (.ok (l.map base), h) ∧ l.Nodup ∧
      (∀ x, x ∈ l ↔ OnlyType (run fac ops) (Edge (run fac ops)) t x) ∧
      (∀ x, HasNode h x ↔ HasNode (run fac ops) x ∧ x ∉ l) ∧
      (∀ x y, Edge h x y ↔ Edge (run fac ops) x y ∧ x ∉ l ∧ y ∉ l) ∧
      (∀ x n, getNode h x = some n → ∃ m, getNode (run fac ops) x = some m ∧ n.data = m.data ∧ n.ntype = m.ntype) ∧
      ∀ x n, getNode h x = some n → n.ntype = t → n.children ≠ [] := by
  obtain ⟨l, h1, h2, h3⟩ := removeLeafs_spec base t (wf_run fac ops)
  refine ⟨l, _, h1, h2, fun x => (h3 x).trans (doomed_iff _ _ t x), fun x => hasNode_restrict _ l x, fun x y => edge_restrict _ l x y, ?_, ?_⟩
  · intro x n hn
    rw [getNode_restrict] at hn
    split at hn
    · cases hn
    · cases hm : getNode (run fac ops) x with
      | none => rw [hm] at hn; cases hn
      | some m => rw [hm] at hn; injection hn with hn; subst hn; exact ⟨m, rfl, rfl, rfl⟩
  · intro x n hn ht hc
    rw [getNode_restrict] at hn
    split at hn
    · cases hn
    · rename_i hx
      cases hm : getNode (run fac ops) x with
      | none => rw [hm] at hn; cases hn
      | some m =>
        rw [hm] at hn; injection hn with hn; subst hn
        obtain ⟨y, hy, hd⟩ := Doomed.of_all (rel := Node.children) hm ht (fun hd => hx ((h3 x).2 hd))
        have : y ∈ m.children.filter (fun z => z ∉ l) := by
          rw [List.mem_filter]; exact ⟨hy, by simpa using fun h => hd ((h3 y).1 h)⟩
        simp only at hc
        rw [hc] at this
        cases this

/-- C19: the same for recursive head removal, along the edges from child to parent. -/
theorem c19_remove_heads (fac : Factory T) (ops : List (Op T D)) (base : Str → Str) (t : T) :
    ∃ (l : List Str) (h : Graph T D), removeHeadsOfType base t (run fac ops) = (.ok (l.map base), h) ∧ l.Nodup ∧
      (∀ x, x ∈ l ↔ OnlyType (run fac ops) (BackEdge (run fac ops)) t x) ∧
      (∀ x, HasNode h x ↔ HasNode (run fac ops) x ∧ x ∉ l) ∧
      (∀ x y, Edge h x y ↔ Edge (run fac ops) x y ∧ x ∉ l ∧ y ∉ l) ∧
      (∀ x n, getNode h x = some n → ∃ m, getNode (run fac ops) x = some m ∧ n.data = m.data ∧ n.ntype = m.ntype) ∧
      ∀ x n, getNode h x = some n → n.ntype = t → n.parents ≠ [] := by
  obtain ⟨l, h1, h2, h3⟩ := removeHeads_spec base t (wf_run fac ops)
  refine ⟨l, _, h1, h2, fun x => (h3 x).trans (doomed_iff _ _ t x), fun x => hasNode_restrict _ l x, fun x y => edge_restrict _ l x y, ?_, ?_⟩
  · intro x n hn
    rw [getNode_restrict] at hn
    split at hn
    · cases hn
    · cases hm : getNode (run fac ops) x with
      | none => rw [hm] at hn; cases hn
      | some m => rw [hm] at hn; injection hn with hn; subst hn; exact ⟨m, rfl, rfl, rfl⟩
  · intro x n hn ht hc
    rw [getNode_restrict] at hn
    split at hn
    · cases hn
    · rename_i hx
      cases hm : getNode (run fac ops) x with
      | none => rw [hm] at hn; cases hn
      | some m =>
        rw [hm] at hn; injection hn with hn; subst hn
        obtain ⟨y, hy, hd⟩ := Doomed.of_all (rel := Node.parents) hm ht (fun hd => hx ((h3 x).2 hd))
        have : y ∈ m.parents.filter (fun z => z ∉ l) := by
          rw [List.mem_filter]; exact ⟨hy, by simpa using fun h => hd ((h3 y).1 h)⟩
        simp only at hc
        rw [hc] at this
        cases this

/-- a chain of two bones with a slot below the first: only the leaf bones go, bottom up -/
example : ((removeLeafsOfType (baseId .bone) .bone (run (D := Int × JVal Rat) spineFactory
    [.addNode (.str s!!"a_BONE") (0, .null) .bone, .addNode (.str s!!"b_BONE") (1, .null) .bone,
     .addNode (.str s!!"c_BONE") (2, .null) .bone, .addNode (.str s!!"s_SLOT") (0, .null) .slot,
     .addEdge s!!"a_BONE" s!!"b_BONE", .addEdge s!!"b_BONE" s!!"c_BONE", .addEdge s!!"a_BONE" s!!"s_SLOT"])).1.toOption,
    (removeHeadsOfType (baseId .bone) .bone (run (D := Int × JVal Rat) spineFactory
    [.addNode (.str s!!"a_BONE") (0, .null) .bone, .addNode (.str s!!"b_BONE") (1, .null) .bone,
     .addNode (.str s!!"c_BONE") (2, .null) .bone, .addNode (.str s!!"s_SLOT") (0, .null) .slot,
     .addEdge s!!"a_BONE" s!!"b_BONE", .addEdge s!!"b_BONE" s!!"c_BONE", .addEdge s!!"s_SLOT" s!!"c_BONE"])).1.toOption) =
    (some [s!!"c", s!!"b"], some [s!!"a", s!!"b", s!!"c"]) := by decide +kernel

end Spine
