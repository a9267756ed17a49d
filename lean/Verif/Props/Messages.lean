import Verif.Model.Messages
import Verif.Lemmas.Repr
import Verif.Lemmas.EraseSkins
import Verif.Props.Tags
import Verif.Spec.Sample
/- Property C93: the messages of the exceptions name what is wrong.  C26: the types that a message says are supported. -/
set_option linter.unusedSectionVars false
namespace Spine
namespace Messages
variable {F : Type} [PyRt F] {T D : Type}

/-! ## Nothing else changes -/

/-- the result of a changing call without the message -/
def dullR {σ α : Type} (q : MRes F σ α) : Res σ α := (dull q.1, q.2)

theorem dull_plain {α : Type} (x : Except Err α) : dull (plain (F := F) x) = x := by cases x <;> rfl

theorem dull_ok {α : Type} (a : α) : dull (F := F) (.ok a) = .ok a := rfl
theorem dull_error {α : Type} (z : Exc F) : dull (α := α) (.error z) = .error z.1 := rfl

theorem dull_bind {α β : Type} (x : Except (Exc F) α) (f : α → Except (Exc F) β) : dull (x >>= f) = dull x >>= fun a => dull (f a) := by
  cases x <;> rfl

theorem same_addChild [DecidableEq T] (g : Graph T D) (p : Str) (n1 : Node T D) (c : Str) (n2 : Option (Node T D)) :
    dullR (addChild (F := F) g p n1 c n2) = Graph.addChild g p n1 c n2 := by
  unfold addChild Graph.addChild
  cases n2 with
  | none => rfl
  | some n =>
    simp only
    split
    · rfl
    · split <;> rfl

theorem same_addParent (g : Graph T D) (c p : Str) (n1 : Option (Node T D)) : dullR (addParent (F := F) g c p n1) = Graph.addParent g c p n1 := by
  unfold addParent Graph.addParent
  cases n1 with
  | none => rfl
  | some n => simp only; split <;> rfl

/-- C93: the calls on a graph have the same outcomes and effects, messages aside. -/
theorem c93_same_graph [DecidableEq T] (fac : Factory T) (root : T) (g : Graph T D) :
    (∀ nid data ty, dullR (addNode (F := F) fac g nid data ty) = Graph.addNode fac g nid data ty) ∧
    (∀ p c, dullR (addEdge (F := F) g p c) = Graph.addEdge g p c) ∧
    (∀ i, dullR (removeNode (F := F) g i) = Graph.removeNode g i) ∧
    (∀ a b n, dull (allPaths (F := F) root g a b n) = Graph.allPaths root g a b n) := by
  refine ⟨?_, ?_, ?_, ?_⟩
  · intro nid data ty
    unfold addNode Graph.addNode
    obtain ⟨m, h, _⟩ := Graph.genId_spec g
    rw [h]
    cases nid with
    | absent => rfl
    | nonStr => rfl
    | str s => simp only; split <;> rfl
  · intro p c
    unfold addEdge Graph.addEdge
    simp only
    cases h1 : Graph.getNode g p with
    | none =>
      cases h2 : Graph.getNode g c with
      | none => rfl
      | some n2 => exact same_addParent g c p none
    | some n1 =>
      simp only
      have hc := same_addChild (F := F) g p n1 c (Graph.getNode g c)
      rw [← hc]
      generalize addChild (F := F) g p n1 c (Graph.getNode g c) = q
      obtain ⟨q1, g'⟩ := q
      cases q1 with
      | error z => rfl
      | ok u =>
        simp only [dullR, dull_ok]
        cases h2 : Graph.getNode g c with
        | none => rfl
        | some n2 => exact same_addParent g' c p (some n1)
  · intro i
    unfold removeNode
    cases h : Graph.getNode g i with
    | none => simp only [dullR, dull_error, Graph.removeNode, h]
    | some n => simp only [dullR, dull_plain]
  · intro a b n
    unfold allPaths Graph.allPaths
    cases Graph.validate root g with
    | error z => rfl
    | ok errs =>
      simp only
      split
      · rfl
      · split
        · rfl
        · split
          · rfl
          · cases Graph.look g b n.toNat { paths := [], visited := [], path := [] } a <;> rfl

theorem same_removeSkin (n : Str) (a : AnimData F) : dullR (removeSkin n a) = AnimData.removeSkin n a := by
  unfold removeSkin
  cases h : AnimData.getSkin a n with
  | none => simp only [dullR, dull_error, AnimData.removeSkin, h]
  | some s => simp only [dullR, dull_plain]

theorem same_removeSkins (ns : List Str) (a : AnimData F) : dullR (removeSkins ns a) = Editor.removeSkins ns a := by
  induction ns generalizing a with
  | nil => rfl
  | cons n ns ih =>
    rw [removeSkins, Editor.removeSkins, ← same_removeSkin]
    generalize removeSkin n a = q
    obtain ⟨q1, a1⟩ := q
    cases q1 with
    | error z => rfl
    | ok r =>
      simp only [dullR, dull_ok]
      rw [← ih]
      generalize removeSkins ns a1 = q
      obtain ⟨q1, a2⟩ := q
      cases q1 <;> rfl

theorem same_check (cls : Str) (known required : List Str) (d : Dict (JVal F)) : dull (check cls known required d) = Cls.check known required d := by
  unfold check Cls.check
  simp only
  split
  · rfl
  · split <;> rfl

theorem same_init (cls : Str) (c : Cls F) (v : JVal F) : dull (init cls c v) = c.init v := by
  unfold init Cls.init
  rw [dull_bind, dull_plain]
  cases c.values v with
  | error z => rfl
  | ok d =>
    simp only [bind, Except.bind]
    rw [← same_check cls]
    cases check cls c.attrs c.required d <;> rfl

theorem same_attachment (key : Str) (v : JVal F) : dull (attachment key v) = Att.init v := by
  unfold attachment Att.init
  cases v with
  | dict d =>
    simp only [bind, Except.bind]
    cases Att.kindOf d with
    | error z => rfl
    | ok k =>
      simp only
      rw [← same_init (className k)]
      cases init (className k) (AttKind.cls k) (.dict d) with
      | error z => rfl
      | ok a =>
        simp only [dull_ok]
        split <;> rfl
  | _ => rfl

theorem same_mapD {α β : Type} {f : Str → α → Except (Exc F) β} {g : α → Except Err β} (h : ∀ k a, dull (f k a) = g a) (d : Dict α) :
    dull (mapD f d) = Spine.mapD g d := by
  unfold Spine.mapD
  induction d with
  | nil => rfl
  | cons p d ih =>
    rw [mapD, mapE, ← h p.1 p.2]
    cases f p.1 p.2 with
    | error z => rfl
    | ok b =>
      simp only [dull_ok]
      rw [← ih]
      cases mapD f d <;> rfl

/-- C93: so do the constructors and the editor. -/
theorem c93_same (names : List Str) (safe : Bool) (e : Editor F) (v s : Str) (cls : Str) (c : Cls F) (j : JVal F) :
    dullR (eraseSkins names safe e) = Editor.eraseSkins names safe e ∧
    dull (version (F := F) v) = Version.mk? F v ∧
    dull (getTags (F := F) s) = Tags.getTags F s ∧
    dull (init cls c j) = c.init j ∧
    dull (attachments j) = Skin.parseAttachments j := by
  refine ⟨?_, ?_, ?_, same_init cls c j, ?_⟩
  · unfold eraseSkins
    have h := same_removeSkins names e.data
    revert h
    generalize removeSkins names e.data = q
    obtain ⟨q1, a⟩ := q
    intro h
    cases q1 with
    | error z =>
      unfold Editor.eraseSkins
      rw [← h]; rfl
    | ok r => simp only [dullR, dull_plain]
  · unfold version
    rw [dull_bind]
    simp only [dull_plain]
    unfold validate Version.mk? Version.validate
    simp only
    split
    · simp only [dull_ok, bind, Except.bind]
    · rfl
  · unfold getTags Tags.getTags
    generalize Tags.findall F s = l
    suffices h : ∀ acc, dull (l.foldlM (tagStep s) acc) = l.foldlM (Tags.step F) acc from h []
    induction l with
    | nil => intro acc; rfl
    | cons t l ih =>
      intro acc
      rw [List.foldlM_cons, List.foldlM_cons, dull_bind]
      have hs : dull (tagStep s acc t) = Tags.step F acc t := by
        unfold tagStep Tags.step
        simp only
        generalize splitOn ':' t.tail.dropLast = w
        match w with
        | [] => rfl
        | [_] => rfl
        | _ :: _ :: _ :: _ => rfl
        | [n, v] =>
          simp only
          split
          · rfl
          · split
            · rfl
            · rw [dull_bind, dull_plain]; rfl
      rw [hs]
      congr 1
      funext acc
      exact ih acc
  · unfold attachments Skin.parseAttachments
    rw [dull_bind, dull_plain]
    congr 1
    funext d
    refine same_mapD (fun _ w => ?_) d
    rw [dull_bind, dull_plain]
    congr 1
    funext e
    exact same_mapD (fun k x => same_attachment k x) e

/-! ## Graphs -/

/-- C93: `add_node` complains about an id that is no string, or names the id, which is that of a node. -/
theorem c93_add_node (fac : Factory T) (g : Graph T D) (nid : IdArg) (data : D) (ty : T) (x : Err) (m : Msg F) :
    (addNode fac g nid data ty).1 = .error (x, some m) ↔
      (nid = .nonStr ∧ x = .type ∧ m = .idType) ∨ (∃ i, nid = .str i ∧ i ∈ Dict.keys g.nodes ∧ x = .value ∧ m = .idUsed i) := by
  unfold addNode
  obtain ⟨k, h, _⟩ := Graph.genId_spec g
  rw [h]
  cases nid with
  | absent => simp
  | nonStr => simp [eq_comm]
  | str s =>
    simp only [reduceCtorEq, false_and, IdArg.str.injEq, false_or, exists_eq_left']
    rw [← Dict.has_iff_mem_keys]
    split
    · rename_i hs; simp [hs, eq_comm]
    · rename_i hs; simp [hs]

/-- C93: `remove_node_by_id` names the id, which is that of no node. -/
theorem c93_remove_node (g : Graph T D) (i : Str) (x : Err) (m : Msg F) :
    (removeNode g i).1 = .error (x, some m) ↔ i ∉ Dict.keys g.nodes ∧ x = .value ∧ m = .noNode i := by
  unfold removeNode Graph.getNode
  rw [← Dict.has_iff_mem_keys, Dict.has]
  cases h : Dict.get? g.nodes i with
  | none => simp [eq_comm]
  | some n =>
    simp only [Option.isSome_some, not_true_eq_false, false_and, iff_false]
    cases (Graph.removeNode g i).1 <;> simp [plain, Except.mapError]

/-- C93: `add_edge` says which end is missing, that the type of the child is forbidden, or that the two ends are one; without a child and a
parent, or without a child, the message is not made up by the library. -/
theorem c93_add_edge [DecidableEq T] (g : Graph T D) (p c : Str) (x : Err) (m : Msg F) :
    (addEdge g p c).1 = .error (x, some m) ↔
      (p ∈ Dict.keys g.nodes ∧ c ∉ Dict.keys g.nodes ∧ x = .type ∧ m = .notANode .child) ∨
      (p ∉ Dict.keys g.nodes ∧ c ∈ Dict.keys g.nodes ∧ x = .type ∧ m = .notANode .parent) ∨
      ∃ a b, Graph.getNode g p = some a ∧ Graph.getNode g c = some b ∧
        ((b.ntype ∈ a.forbidden ∧ x = .type ∧ m = .forbidden) ∨ (b.ntype ∉ a.forbidden ∧ p = c ∧ x = .value ∧ m = .ownRelative .child)) := by
  unfold addEdge
  simp only [← Dict.has_iff_mem_keys, Dict.has]
  show _ ↔ (((Graph.getNode g p).isSome = true ∧ ¬ (Graph.getNode g c).isSome = true ∧ _) ∨ (¬ (Graph.getNode g p).isSome = true ∧ (Graph.getNode g c).isSome = true ∧ _) ∨ _)
  cases h1 : Graph.getNode g p with
  | none =>
    cases h2 : Graph.getNode g c with
    | none => simp
    | some b => simp [addParent, eq_comm]
  | some a =>
    cases h2 : Graph.getNode g c with
    | none => simp [addChild, eq_comm]
    | some b =>
      unfold addChild
      by_cases h3 : b.ntype ∈ a.forbidden
      · simp [h3, eq_comm]
      · by_cases h4 : p = c
        · simp [h3, h4, eq_comm]
        · simp [h3, h4, addParent]

/-- C93: `get_all_paths` reports what `validate` finds, if anything; otherwise it names the end that is missing, the first one first. -/
theorem c93_paths [DecidableEq T] (root : T) (g : Graph T D) (a b : Str) (n : Int) (x : Err) (m : Msg F) :
    allPaths root g a b n = .error (x, some m) ↔ x = .value ∧ ∃ errs, Graph.validate root g = .ok errs ∧
      ((errs ≠ [] ∧ m = .invalidGraph errs) ∨
       (errs = [] ∧ a ∉ Dict.keys g.nodes ∧ m = .noEnd a) ∨
       (errs = [] ∧ a ∈ Dict.keys g.nodes ∧ b ∉ Dict.keys g.nodes ∧ m = .noEnd b)) := by
  unfold allPaths
  simp only [← Dict.has_iff_mem_keys]
  cases h : Graph.validate root g with
  | error z => simp
  | ok errs =>
    simp only [Except.ok.injEq, exists_eq_left']
    by_cases h1 : errs = []
    · by_cases h2 : Dict.has g.nodes a = true
      · by_cases h3 : Dict.has g.nodes b = true
        · simp only [h1, h2, h3, ne_eq, not_true_eq_false, if_false, false_and, or_false, and_false]
          cases Graph.look g b n.toNat { paths := [], visited := [], path := [] } a <;> simp
        · simp only [h1, h2, h3, ne_eq, not_true_eq_false, if_false, false_and, false_or, and_false, Bool.false_eq_true, not_false_eq_true, if_true, true_and,
            Except.error.injEq, Prod.mk.injEq, Option.some.injEq, eq_comm (a := x), eq_comm (a := m)]
      · simp only [h1, h2, ne_eq, not_true_eq_false, if_false, false_and, false_or, or_false, and_false, Bool.false_eq_true, not_false_eq_true, if_true, true_and,
            Except.error.injEq, Prod.mk.injEq, Option.some.injEq, eq_comm (a := x), eq_comm (a := m)]
    · simp only [h1, ne_eq, false_and, or_false, not_false_eq_true, if_true, true_and,
            Except.error.injEq, Prod.mk.injEq, Option.some.injEq, eq_comm (a := x), eq_comm (a := m)]

/-! ## Versions and tags -/

/-- C93: a message about a version quotes it, and it is not of the form of a version. -/
theorem c93_version (v : Str) (x : Err) (m : Msg F) :
    version (F := F) v = .error (x, some m) ↔ Version.validate F v = .error .value ∧ x = .value ∧ m = .version v := by
  unfold version validate Version.validate
  simp only
  split
  · simp only [bind, Except.bind, reduceCtorEq, false_and, iff_false]
    cases Version.mk? F v <;> simp [plain, Except.mapError]
  · simp [bind, Except.bind, eq_comm]

theorem tagStep_eq {t k v : Str} (name : Str) (ht : Tags.IsTag F t k v) (acc : Dict F) :
    tagStep name acc t = if Dict.has acc k then .error (.value, some (.tagRepeated k))
      else if k ≠ s!!"scale" then .error (.value, some (.tagUnsupported k name))
      else match PyRt.fparse (F := F) (strip F v) with
        | some x => .ok (Dict.set acc k x)
        | none => .error (.value, none) := by
  obtain ⟨⟨w₁, w₂, e, hw₁, hw₂⟩, hk, hkc, hv, hvc⟩ := ht
  have hinner : t.tail.dropLast = (w₁ ++ k ++ w₂) ++ ':' :: v := by
    rw [e]
    rw [List.tail_cons]
    have : w₁ ++ (k ++ (w₂ ++ ':' :: (v ++ [']']))) = ((w₁ ++ k ++ w₂) ++ ':' :: v) ++ [']'] := by simp
    rw [this, List.dropLast_concat]
  have hcol : ':' ∉ w₁ ++ k ++ w₂ := by
    simp only [List.mem_append, not_or]
    refine ⟨⟨?_, ?_⟩, ?_⟩
    · intro hm; have := hw₁ _ hm; rw [Tags.colon_not_space] at this; cases this
    · intro hm; have := hkc _ hm; rw [Tags.colon_not_name] at this; cases this
    · intro hm; have := hw₂ _ hm; rw [Tags.colon_not_space] at this; cases this
  have hcolv : ':' ∉ v := by
    intro hm; have := hvc _ hm; rw [Tags.colon_not_val] at this; cases this
  have hst : strip F (w₁ ++ k ++ w₂) = k :=
    strip_eq hw₁ hw₂ (trimmed_of_no_space (fun c hc => Tags.nameChar_not_space (hkc c hc)))
  unfold tagStep
  simp only [hinner]
  rw [splitOn_append hcol, splitOn_no_sep hcolv]
  simp only [hst]
  split
  · rfl
  · split
    · rfl
    · unfold Tags.castNumber
      cases PyRt.fparse (F := F) (strip F v) <;> rfl

/-- C93: a message about a tag names the first tag that cannot be taken: one with another key than `scale`, or a second one; `ts` are the tags of
the name. -/
theorem c93_tags (s : Str) (ts : List (Str × Str)) (h : Tags.TagsOf F s ts) (x : Err) (m : Msg F) :
    getTags s = .error (x, some m) ↔ x = .value ∧
      ((∃ k v r, ts = (k, v) :: r ∧ k ≠ s!!"scale" ∧ m = .tagUnsupported k s) ∨
       (∃ v y k w r, ts = (s!!"scale", v) :: (k, w) :: r ∧ PyRt.fparse (F := F) (strip F v) = some y ∧
          ((k = s!!"scale" ∧ m = .tagRepeated k) ∨ (k ≠ s!!"scale" ∧ m = .tagUnsupported k s)))) := by
  obtain ⟨l, hl, hf⟩ := Tags.findall_tagsOf F h
  unfold getTags
  rw [hl]
  cases hf with
  | nil => simp [pure, Except.pure]
  | @cons t p l ts ht hf =>
    obtain ⟨k, v⟩ := p
    simp only at ht
    rw [List.foldlM_cons, tagStep_eq s ht]
    by_cases hk : k = s!!"scale"
    · subst hk
      cases hx : PyRt.fparse (F := F) (strip F v) with
      | none =>
        simp [Dict.has, Dict.get?, bind, Except.bind]
        grind
      | some y =>
        cases hf with
        | nil => simp [Dict.has, Dict.get?, bind, Except.bind, pure, Except.pure]
        | @cons t' p' l' ts' ht' hf' =>
          obtain ⟨k', v'⟩ := p'
          simp only at ht'
          simp only [bind, Except.bind, Dict.has, Dict.get?, Option.isSome_none, Bool.false_eq_true, if_false, ne_eq, not_true_eq_false]
          rw [List.foldlM_cons, tagStep_eq s ht']
          by_cases hk' : k' = s!!"scale"
          · subst hk'
            simp [Dict.has, Dict.set, Dict.get?, bind, Except.bind]
            grind
          · have hn : Dict.has (Dict.set [] s!!"scale" y) k' = false := by
              simp [Dict.has, Dict.set, Dict.get?]; exact fun h => hk' h.symm
            simp [hn, hk', bind, Except.bind]
            grind
    · simp [Dict.has, Dict.get?, bind, Except.bind, hk]
      grind

/-! ## Skins -/

/-- C93: the message of `erase_skins` names the first skin that is not there: the ones before it have been removed, and it is no skin or one of
them. -/
theorem c93_erase_skins (names : List Str) (safe : Bool) (e : Editor F) (x : Err) (m : Msg F) :
    (eraseSkins names safe e).1 = .error (x, some m) ↔ x = .editor ∧ ∃ pre n post r a, names = pre ++ n :: post ∧
      Editor.removeSkins pre e.data = (.ok r, a) ∧ ((∀ s ∈ e.data.skins, s.name ≠ n) ∨ n ∈ pre) ∧ m = .noSkin n := by
  have key : ∀ (names : List Str) (a : AnimData F), (removeSkins names a).1 = .error (x, some m) ↔ x = .editor ∧ ∃ pre n post r a', names = pre ++ n :: post ∧
      Editor.removeSkins pre a = (.ok r, a') ∧ AnimData.getSkin a' n = none ∧ m = .noSkin n := by
    intro names
    induction names with
    | nil => intro a; simp [removeSkins]
    | cons n ns ih =>
      intro a
      rw [removeSkins]
      have hs := same_removeSkin n a
      cases hg : AnimData.getSkin a n with
      | none =>
        have hr : removeSkin n a = (.error (.editor, some (.noSkin n)), a) := by unfold removeSkin; rw [hg]
        rw [hr] at hs ⊢
        simp only [Except.error.injEq, Prod.mk.injEq, Option.some.injEq]
        constructor
        · rintro ⟨rfl, rfl⟩
          exact ⟨rfl, [], n, ns, ([], []), a, rfl, rfl, hg, rfl⟩
        · rintro ⟨rfl, pre, n', post, r, a', h1, h2, h3, rfl⟩
          cases pre with
          | nil =>
            simp only [List.nil_append, List.cons.injEq] at h1
            rw [h1.1]; exact ⟨rfl, rfl⟩
          | cons p pre =>
            simp only [List.cons_append, List.cons.injEq] at h1
            rw [← h1.1, Editor.removeSkins, ← hs] at h2
            simp [dullR, dull_error] at h2
      | some s =>
        have hr : removeSkin n a = (plain (AnimData.removeSkin n a).1, (AnimData.removeSkin n a).2) := by unfold removeSkin; rw [hg]
        rw [hr]
        generalize hq : AnimData.removeSkin n a = q
        obtain ⟨q1, a1⟩ := q
        cases q1 with
        | error z =>
          simp only [plain, Except.mapError, Except.error.injEq, Prod.mk.injEq, reduceCtorEq, and_false, false_iff]
          rintro ⟨_, pre, n', post, r, a', h1, h2, h3, _⟩
          cases pre with
          | nil =>
            simp only [List.nil_append, List.cons.injEq] at h1
            simp only [Editor.removeSkins, Prod.mk.injEq] at h2
            rw [← h2.2, ← h1.1, hg] at h3; cases h3
          | cons p pre =>
            simp only [List.cons_append, List.cons.injEq] at h1
            rw [← h1.1, Editor.removeSkins, hq] at h2
            simp at h2
        | ok r1 =>
          obtain ⟨i, s1⟩ := r1
          simp only [plain, Except.mapError]
          have hi := ih a1
          refine Iff.trans ?_ (hi.trans ?_)
          · generalize removeSkins ns a1 = q
            obtain ⟨q1, a2⟩ := q
            cases q1 <;> simp
          refine and_congr_right (fun _ => ?_)
          constructor
          · rintro ⟨pre, n', post, r, a', h1, h2, h3, h4⟩
            refine ⟨n :: pre, n', post, (i ++ r.1, s1 ++ r.2), a', by rw [h1]; rfl, ?_, h3, h4⟩
            rw [Editor.removeSkins, hq]
            simp only [h2]
          · rintro ⟨pre, n', post, r, a', h1, h2, h3, h4⟩
            cases pre with
            | nil =>
              simp only [List.nil_append, List.cons.injEq] at h1
              simp only [Editor.removeSkins, Prod.mk.injEq] at h2
              rw [← h2.2, ← h1.1, hg] at h3; cases h3
            | cons p pre =>
              simp only [List.cons_append, List.cons.injEq] at h1
              rw [← h1.1, Editor.removeSkins, hq] at h2
              simp only at h2
              generalize hp : Editor.removeSkins pre a1 = q at h2
              obtain ⟨q1, a2⟩ := q
              cases q1 with
              | error z => simp at h2
              | ok r2 =>
                simp only [Prod.mk.injEq] at h2
                exact ⟨pre, n', post, r2, a2, h1.2, hp, by rw [h2.2]; exact h3, h4⟩
  have hfst : (eraseSkins names safe e).1 = .error (x, some m) ↔ (removeSkins names e.data).1 = .error (x, some m) := by
    unfold eraseSkins
    generalize removeSkins names e.data = q
    obtain ⟨q1, a⟩ := q
    cases q1 with
    | error z => simp
    | ok r =>
      simp only [reduceCtorEq, iff_false]
      cases (Editor.eraseSkins names safe e).1 <;> simp [plain, Except.mapError]
  rw [hfst, key]
  refine and_congr_right (fun _ => ?_)
  have none_iff : ∀ (a : AnimData F) n, AnimData.getSkin a n = none ↔ n ∉ a.skins.map (·.name) := by
    intro a n
    unfold AnimData.getSkin
    rw [List.find?_eq_none]
    simp
  constructor
  · rintro ⟨pre, n, post, r, a, h1, h2, h3, h4⟩
    refine ⟨pre, n, post, r, a, h1, h2, ?_, h4⟩
    rw [none_iff, (Editor.removeSkins_facts h2).2.2.1] at h3
    simp only [List.mem_filter, decide_eq_true_eq, not_and, Decidable.not_not, List.mem_map] at h3
    by_cases hp : n ∈ pre
    · exact .inr hp
    · exact .inl (fun s hs hn => hp (h3 ⟨s, hs, hn⟩))
  · rintro ⟨pre, n, post, r, a, h1, h2, h3, h4⟩
    refine ⟨pre, n, post, r, a, h1, h2, ?_, h4⟩
    rw [none_iff, (Editor.removeSkins_facts h2).2.2.1]
    simp only [List.mem_filter, decide_eq_true_eq, not_and, Decidable.not_not, List.mem_map]
    rintro ⟨s, hs, hn⟩
    rcases h3 with h3 | h3
    · exact absurd hn (h3 s hs)
    · exact h3

/-! ## Reading -/

/-- C93: a constructor that takes the attributes `known` names all those it does not know, in the order of the document; if there are none, all
the required ones that are missing, in some order. -/
theorem c93_attributes (cls : Str) (known required : List Str) (d : Dict (JVal F)) (x : Err) (m : Msg F) (h : check cls known required d = .error (x, some m)) :
    (∃ l, l ≠ [] ∧ m = .unsupported l cls ∧ x = .unsupportedAttrs l ∧ l = (d.map (·.1)).filter (fun k => k ∉ known)) ∨
    (∃ l, l ≠ [] ∧ m = .missing l cls ∧ l.Nodup ∧ (∀ k ∈ d.map (·.1), k ∈ known) ∧ ∀ k, k ∈ l ↔ k ∈ required ∧ k ∉ d.map (·.1)) := by
  unfold check at h
  simp only at h
  split at h
  · rename_i hu
    simp only [Except.error.injEq, Prod.mk.injEq, Option.some.injEq] at h
    exact .inl ⟨_, hu, h.2.symm, h.1.symm, rfl⟩
  · rename_i hu
    split at h
    · rename_i hm
      simp only [Except.error.injEq, Prod.mk.injEq, Option.some.injEq] at h
      refine .inr ⟨_, ?_, h.2.symm, ?_, ?_, ?_⟩
      · intro he
        have hp := PyRt.setOrder_perm (F := F) (required.filter (fun k => k ∉ Dict.keys d)).eraseDups
        unfold setList at he
        rw [he] at hp
        have := hp.nil_eq
        obtain ⟨k, hk⟩ := List.exists_mem_of_ne_nil _ hm
        have hk' := List.mem_eraseDups.2 hk
        rw [← this] at hk'; cases hk'
      · exact (PyRt.setOrder_perm (F := F) _).nodup_iff.2 (nodup_eraseDups _)
      · simp only [ne_eq, Decidable.not_not, List.filter_eq_nil_iff, decide_eq_true_eq] at hu
        exact hu
      · intro k
        unfold setList
        rw [(PyRt.setOrder_perm (F := F) _).mem_iff, List.mem_eraseDups, List.mem_filter]
        exact and_congr_right fun _ => decide_eq_true_iff
    · cases h

theorem mapD_error {α β : Type} {f : Str → α → Except (Exc F) β} {z : Exc F} (d : Dict α) :
    mapD f d = .error z ↔ ∃ pre k a post, d = pre ++ (k, a) :: post ∧ f k a = .error z ∧ ∀ p ∈ pre, ∃ b, f p.1 p.2 = .ok b := by
  induction d with
  | nil => simp [mapD]
  | cons p d ih =>
    rw [mapD]
    cases h : f p.1 p.2 with
    | error y =>
      simp only [Except.error.injEq]
      constructor
      · rintro rfl
        exact ⟨[], p.1, p.2, d, rfl, h, by simp⟩
      · rintro ⟨pre, k, a, post, h1, h2, h3⟩
        cases pre with
        | nil =>
          simp only [List.nil_append, List.cons.injEq] at h1
          rw [h1.1] at h
          rw [h] at h2
          exact Except.error.inj h2
        | cons q pre =>
          simp only [List.cons_append, List.cons.injEq] at h1
          obtain ⟨b, hb⟩ := h3 q (by simp)
          rw [← h1.1, h] at hb; cases hb
    | ok b =>
      simp only
      refine Iff.trans (b := mapD f d = .error z) (by cases mapD f d <;> simp) ?_
      rw [ih]
      constructor
      · rintro ⟨pre, k, a, post, h1, h2, h3⟩
        refine ⟨p :: pre, k, a, post, by rw [h1]; rfl, h2, ?_⟩
        intro q hq
        rcases List.mem_cons.1 hq with rfl | hq
        · exact ⟨b, h⟩
        · exact h3 q hq
      · rintro ⟨pre, k, a, post, h1, h2, h3⟩
        cases pre with
        | nil =>
          simp only [List.nil_append, List.cons.injEq] at h1
          rw [h1.1] at h
          rw [h] at h2; cases h2
        | cons q pre =>
          simp only [List.cons_append, List.cons.injEq] at h1
          exact ⟨pre, k, a, post, h1.2, h2, fun q hq => h3 q (by simp [hq])⟩

/-- the types of attachments that are read -/
def accepted : List Str := [s!!"path", s!!"mesh", s!!"linkedmesh", s!!"point", s!!"clipping", s!!"boundingbox"]

/-- the type of an attachment is refused -/
def Refused (t : JVal F) : Prop := t ≠ .null ∧ ∀ s ∈ accepted, t ≠ .str s

theorem kindOf_error (d : Dict (JVal F)) (z : Err) : Att.kindOf d = .error z ↔ z = .value ∧ ∃ t, Dict.get? d s!!"type" = some t ∧ Refused t := by
  unfold Att.kindOf Refused accepted
  cases h : Dict.get? d s!!"type" with
  | none => simp
  | some t =>
    cases t with
    | str s =>
      simp only [Option.some.injEq, exists_eq_left', ne_eq, reduceCtorEq, not_false_eq_true, true_and, JVal.str.injEq]
      split
      · rename_i e; simp [e]
      · split
        · rename_i e; simp [e]
        · split
          · rename_i e; simp [e]
          · split
            · rename_i e; simp [e]
            · split
              · rename_i e; simp [e]
              · split
                · rename_i e; simp [e]
                · simp_all [eq_comm]
    | null => simp
    | bool _ => simp [eq_comm]
    | int _ => simp [eq_comm]
    | flt _ => simp [eq_comm]
    | list _ => simp [eq_comm]
    | dict _ => simp [eq_comm]

theorem check_message {cls : Str} {known required : List Str} {d : Dict (JVal F)} {x : Err} {t : JVal F} {k : Str} :
    check cls known required d ≠ .error (x, some (.attType t k)) := by
  unfold check
  simp only
  split
  · simp
  · split <;> simp

theorem attachment_error (key : Str) (v : JVal F) (x : Err) (t : JVal F) (k : Str) :
    attachment key v = .error (x, some (.attType t k)) ↔ x = .value ∧ k = key ∧ ∃ d, v = .dict d ∧ Dict.get? d s!!"type" = some t ∧ Refused t := by
  unfold attachment
  cases v with
  | dict d =>
    simp only [JVal.dict.injEq, exists_eq_left']
    cases hk : Att.kindOf d with
    | error z =>
      obtain ⟨rfl, t', h1, h2⟩ := (kindOf_error d z).1 hk
      simp only [h1, Option.getD_some, Except.error.injEq, Prod.mk.injEq, Option.some.injEq, Msg.attType.injEq]
      constructor
      · rintro ⟨rfl, rfl, rfl⟩; exact ⟨rfl, rfl, rfl, h2⟩
      · rintro ⟨rfl, rfl, rfl, _⟩; exact ⟨rfl, rfl, rfl⟩
    | ok c =>
      have hno : ¬ ∃ t, Dict.get? d s!!"type" = some t ∧ Refused t := by
        intro h
        have := (kindOf_error d .value).2 ⟨rfl, h⟩
        rw [this] at hk; cases hk
      simp only [bind, Except.bind]
      constructor
      · intro h
        exfalso
        revert h
        unfold init
        simp only [bind, Except.bind]
        cases (AttKind.cls c).values (.dict d) with
        | error z => simp [plain, Except.mapError]
        | ok w =>
          simp only [plain, Except.mapError]
          cases hc : check (className c) (AttKind.cls (F := F) c).attrs (AttKind.cls (F := F) c).required w with
          | error y =>
            simp only [Except.error.injEq]
            rintro rfl
            exact check_message hc
          | ok u =>
            simp only [pure, Except.pure]
            split <;> simp
      · rintro ⟨_, _, h⟩
        exact absurd ⟨t, h⟩ hno
  | _ => simp

/-- C93: a message about the type of an attachment names the type and the attachment, which is the first one that is not read, in the order
of the document; its type is refused. -/
theorem c93_attachment_type (v : JVal F) (x : Err) (t : JVal F) (k : Str) :
    attachments v = .error (x, some (.attType t k)) ↔ x = .value ∧ ∃ d pre slot e post pre' a post', v = .dict d ∧ d = pre ++ (slot, .dict e) :: post ∧
      e = pre' ++ (k, .dict a) :: post' ∧ Dict.get? a s!!"type" = some t ∧ Refused t ∧
      (∀ p ∈ pre, ∃ w r, p.2 = .dict w ∧ mapD attachment w = .ok r) ∧ (∀ q ∈ pre', ∃ b, attachment q.1 q.2 = .ok b) := by
  unfold attachments Skin.level
  cases v with
  | dict d =>
    simp only [plain, Except.mapError, bind, Except.bind, JVal.dict.injEq]
    rw [mapD_error]
    constructor
    · rintro ⟨pre, slot, w, post, h1, h2, h3⟩
      cases w with
      | dict e =>
        simp only at h2
        obtain ⟨pre', k', y, post', h4, h5, h6⟩ := (mapD_error e).1 h2
        obtain ⟨rfl, rfl, a, rfl, h7, h8⟩ := (attachment_error k' y x t k).1 h5
        refine ⟨rfl, d, pre, slot, e, post, pre', a, post', rfl, h1, h4, h7, h8, ?_, h6⟩
        intro p hp
        obtain ⟨b, hb⟩ := h3 p hp
        revert hb
        cases hw : p.2 with
        | dict w => intro hb; exact ⟨w, b, rfl, hb⟩
        | _ => intro hb; cases hb
      | _ => simp at h2
    · rintro ⟨rfl, d', pre, slot, e, post, pre', a, post', rfl, h1, h4, h7, h8, h3, h6⟩
      refine ⟨pre, slot, .dict e, post, h1, ?_, ?_⟩
      · simp only
        exact (mapD_error e).2 ⟨pre', k, .dict a, post', h4, (attachment_error k _ _ t k).2 ⟨rfl, rfl, a, rfl, h7, h8⟩, h6⟩
      · intro p hp
        obtain ⟨w, r, h9, h10⟩ := h3 p hp
        rw [h9]
        exact ⟨r, h10⟩
  | _ => simp [plain, Except.mapError, bind, Except.bind]

/-! ## The texts -/

section
open Spine.Repr

theorem more_items {α : Type} {f : α → Str} (hf : ∀ a b r r', f a ++ r = f b ++ r' → a = b ∧ r = r') {c : Char} (hc : c ≠ ',') :
    ∀ {l m : List α} {r r' : Str}, more (l.map f) ++ c :: r = more (m.map f) ++ c :: r' → l = m ∧ r = r'
  | [], [], r, r', h => by simpa [more] using h
  | [], b :: m, r, r', h => by
    simp only [List.map_nil, List.map_cons, more, List.nil_append, List.cons_append, List.cons.injEq] at h
    exact absurd h.1 hc
  | a :: l, [], r, r', h => by
    simp only [List.map_nil, List.map_cons, more, List.nil_append, List.cons_append, List.cons.injEq] at h
    exact absurd h.1.symm hc
  | a :: l, b :: m, r, r', h => by
    simp only [List.map_cons, more, List.cons_append, List.nil_append, List.cons.injEq, true_and, List.append_assoc] at h
    obtain ⟨rfl, h1⟩ := hf a b _ _ h
    obtain ⟨rfl, h2⟩ := more_items hf hc h1
    exact ⟨rfl, h2⟩

theorem join_items {α : Type} {f : α → Str} (hf : ∀ a b r r', f a ++ r = f b ++ r' → a = b ∧ r = r') {c : Char} (hc : c ≠ ',')
    (hh : ∀ a r r', f a ++ r ≠ c :: r') {l m : List α} {r r' : Str} (h : join (l.map f) ++ c :: r = join (m.map f) ++ c :: r') : l = m ∧ r = r' := by
  cases l with
  | nil =>
    cases m with
    | nil => simpa [join] using h
    | cons b m =>
      rw [List.map_cons, join_cons, List.append_assoc] at h
      exact absurd h.symm (hh b _ _)
  | cons a l =>
    rw [List.map_cons, join_cons, List.append_assoc] at h
    cases m with
    | nil => exact absurd h (hh a _ _)
    | cons b m =>
      rw [List.map_cons, join_cons, List.append_assoc] at h
      obtain ⟨rfl, h1⟩ := hf a b _ _ h
      obtain ⟨rfl, h2⟩ := more_items hf hc h1
      exact ⟨rfl, h2⟩

variable {pr : Char → Bool} {fr : F → Str}

theorem errText_cancel (a b : Graph.GraphError) (r r' : Str) (h : errText pr a ++ r = errText pr b ++ r') : a = b ∧ r = r' := by
  unfold errText at h
  cases a <;> cases b <;>
    simp only [Graph.GraphError.asDict, List.map_cons, List.map_nil, join, List.cons_append, List.append_assoc, List.cons.injEq, true_and, List.nil_append] at h <;>
    obtain ⟨h1, h⟩ := str_cancel h
  · simp only [List.cons.injEq, true_and] at h
    obtain ⟨rfl, h⟩ := list_cancel h
    simpa using h
  · exact absurd h1 (by decide)
  · exact absurd h1 (by decide)
  · simp only [List.cons.injEq, true_and] at h
    obtain ⟨rfl, h⟩ := list_cancel h
    simpa using h

theorem str_ne {c : Char} (h1 : c ≠ '\'') (h2 : c ≠ '"') (a : Str) (r r' : Str) : str pr a ++ r ≠ c :: r' := by
  obtain ⟨q, t, h, hq⟩ := str_head (pr := pr) a
  rw [h]
  intro h
  simp only [List.cons_append, List.cons.injEq] at h
  rcases hq with rfl | rfl
  · exact h1 h.1.symm
  · exact h2 h.1.symm

theorem cancel_char {c : Char} : ∀ {a b r r' : Str}, c ∉ a → c ∉ b → a ++ c :: r = b ++ c :: r' → a = b ∧ r = r'
  | [], [], r, r', _, _, h => by simpa using h
  | [], y :: b, r, r', _, hb, h => by
    simp only [List.nil_append, List.cons_append, List.cons.injEq] at h
    exact absurd (by rw [h.1]; simp) hb
  | x :: a, [], r, r', ha, _, h => by
    simp only [List.nil_append, List.cons_append, List.cons.injEq] at h
    exact absurd (by rw [h.1]; simp) ha
  | x :: a, y :: b, r, r', ha, hb, h => by
    simp only [List.cons_append, List.cons.injEq] at h
    obtain ⟨rfl, h⟩ := h
    obtain ⟨rfl, h1⟩ := cancel_char (fun h => ha (by simp [h])) (fun h => hb (by simp [h])) h
    exact ⟨rfl, h1⟩

/-- C93: what a message names can be read from its text (the keys of tags have no brackets). -/
theorem c93_text (pr : Char → Bool) (fr : F → Str) :
    (∀ i j : Str, (Msg.idUsed i).text pr fr = (Msg.idUsed j).text pr fr → i = j) ∧
    (∀ i j : Str, (Msg.noNode i).text pr fr = (Msg.noNode j).text pr fr → i = j) ∧
    (∀ r q : Role, (Msg.notANode r).text pr fr = (Msg.notANode q).text pr fr → r = q) ∧
    (∀ a b : List Graph.GraphError, (Msg.invalidGraph a).text pr fr = (Msg.invalidGraph b).text pr fr → a = b) ∧
    (∀ i j : Str, (Msg.noEnd i).text pr fr = (Msg.noEnd j).text pr fr → i = j) ∧
    (∀ i j : Str, (Msg.version i).text pr fr = (Msg.version j).text pr fr → i = j) ∧
    (∀ i j : Str, (Msg.tagRepeated i).text pr fr = (Msg.tagRepeated j).text pr fr → i = j) ∧
    (∀ i j n m : Str, ']' ∉ i → ']' ∉ j → (Msg.tagUnsupported i n).text pr fr = (Msg.tagUnsupported j m).text pr fr → i = j ∧ n = m) ∧
    (∀ i j : Str, (Msg.noSkin i).text pr fr = (Msg.noSkin j).text pr fr → i = j) ∧
    (∀ (a b : List Str) (c d : Str), (Msg.unsupported a c).text pr fr = (Msg.unsupported b d).text pr fr → a = b ∧ c = d) ∧
    (∀ (a b : List Str) (c d : Str), (Msg.missing a c).text pr fr = (Msg.missing b d).text pr fr → a = b ∧ c = d) ∧
    (∀ (t u : JVal F) (k : Str), (Msg.attType t k).text pr fr = (Msg.attType u k).text pr fr → formatted pr fr t = formatted pr fr u) := by
  refine ⟨?_, ?_, ?_, ?_, ?_, ?_, ?_, ?_, ?_, ?_, ?_, ?_⟩
  · intro i j h
    exact List.append_cancel_left (List.append_cancel_right h)
  · intro i j h
    exact List.append_cancel_left (List.append_cancel_right h)
  · intro r q h
    have := List.append_cancel_right h
    cases r <;> cases q <;> first | rfl | exact absurd this (by decide)
  · intro a b h
    have h := List.append_cancel_left h
    simp only [List.cons.injEq, true_and] at h
    refine (join_items (fun a b r r' => errText_cancel a b r r') (by decide) ?_ h).1
    intro a r r' h
    simp [errText] at h
  · intro i j h
    exact List.append_cancel_left (List.append_cancel_right h)
  · intro i j h
    exact List.append_cancel_right h
  · intro i j h
    exact List.append_cancel_left (List.append_cancel_right h)
  · intro i j n m hi hj h
    simp only [Msg.text, List.append_assoc] at h
    have h := List.append_cancel_left h
    obtain ⟨h1, h⟩ := cancel_char hi hj h
    exact ⟨h1, List.append_cancel_left (as := s!!" in ") h⟩
  · intro i j h
    exact List.append_cancel_left (List.append_cancel_right h)
  · intro a b c d h
    simp only [Msg.text, List.append_assoc] at h
    obtain ⟨h1, h⟩ := list_cancel (List.append_cancel_left h)
    exact ⟨h1, List.append_cancel_right (List.append_cancel_left h)⟩
  · intro a b c d h
    simp only [Msg.text, List.append_assoc] at h
    have h := List.append_cancel_left h
    simp only [List.cons_append, List.nil_append, List.append_assoc, List.cons.injEq, true_and] at h
    obtain ⟨h1, h⟩ := join_items (fun a b r r' h => str_cancel h) (by decide) (fun a r r' => str_ne (by decide) (by decide) a r r') h
    exact ⟨h1, List.append_cancel_right (List.append_cancel_left (as := s!!" in ") h)⟩
  · intro t u k h
    simp only [Msg.text, List.append_assoc] at h
    have h := List.append_cancel_left h
    exact List.append_cancel_right h

end

/-! ## C26: the supported types -/

/-- C26: of the types other than "region", "slot" and "linkedmesh", those that are refused are the ones that the message does not list. -/
theorem c26_message_partial (key t : Str) (a : Dict (JVal F)) (ht : Dict.get? a s!!"type" = some (.str t)) (h : t ∉ [s!!"region", s!!"slot", s!!"linkedmesh"]) :
    attachment key (.dict a) = .error (.value, some (.attType (.str t) key)) ↔ t ∉ listed := by
  rw [attachment_error]
  simp only [true_and, JVal.dict.injEq, exists_eq_left', ht, Refused, accepted, listed]
  simp only [ne_eq, reduceCtorEq, not_false_eq_true, true_and, JVal.str.injEq, List.mem_cons, List.not_mem_nil, or_false, forall_eq_or_imp, forall_eq, not_or] at h ⊢
  exact ⟨fun ⟨a, b, _, c, d, e⟩ => ⟨b, a, h.2.1, c, d, e, h.1⟩, fun ⟨b, a, _, c, d, e, _⟩ => ⟨a, b, h.2.2, c, d, e⟩⟩

/-- C26: the types that are listed and refused, and those that are read and not listed. -/
theorem c26_message_exact (t : Str) :
    (Refused (.str t : JVal F) ∧ t ∈ listed ↔ t = s!!"region" ∨ t = s!!"slot") ∧ (¬ Refused (.str t : JVal F) ∧ t ∉ listed ↔ t = s!!"linkedmesh") := by
  simp only [Refused, accepted, listed, ne_eq, reduceCtorEq, not_false_eq_true, true_and, JVal.str.injEq, List.mem_cons, List.not_mem_nil, or_false, forall_eq_or_imp,
    forall_eq]
  constructor
  · constructor
    · rintro ⟨⟨a, b, c, d, e, f⟩, h⟩
      rcases h with h | h | h | h | h | h | h
      · exact absurd h b
      · exact absurd h a
      · exact .inr h
      · exact absurd h d
      · exact absurd h e
      · exact absurd h f
      · exact .inl h
    · rintro (rfl | rfl) <;> decide
  · constructor
    · rintro ⟨h, k⟩
      simp only [not_or] at k
      refine Decidable.byContradiction fun hl => h ⟨k.2.1, k.1, hl, k.2.2.2.1, k.2.2.2.2.1, k.2.2.2.2.2.1⟩
    · rintro rfl
      decide

/-! ## Examples -/

section examples
open Sample

/-- the text of the message -/
def said {α : Type} (x : Except (Exc Rat) α) : Option String :=
  match x with
  | .error (_, some m) => some (String.ofList (m.text (fun _ => true) (fun _ => [])))
  | _ => none

abbrev G := Graph Str Nat

/-- a, b, c; a over b -/
def three : G :=
  let g := (Graph.addNode defaultFactory Graph.empty (.str s!!"a") 0 s!!"ROOT").2
  let g := (Graph.addNode defaultFactory g (.str s!!"b") 0 s!!"x").2
  let g := (Graph.addNode defaultFactory g (.str s!!"it's") 0 s!!"x").2
  (Graph.addEdge g s!!"a" s!!"b").2

example : said (addNode defaultFactory three (.str s!!"b") 0 s!!"x").1 = some "Multiples nodes with ID = b where found, but ids need to be unique" := by decide +kernel
example : said (addNode defaultFactory three .nonStr 0 s!!"x").1 = some "Only string type allowed for node_id param" := by decide +kernel
example : said (removeNode three s!!"z").1 = some "Node with ID = z was not found in the graph" := by decide +kernel
example : said (addEdge three s!!"a" s!!"z").1 = some "child needs to be a node" := by decide +kernel
example : said (addEdge three s!!"z" s!!"a").1 = some "parent needs to be a node" := by decide +kernel
example : said (addEdge three s!!"a" s!!"a").1 = some "A node cannot be its own child" := by decide +kernel
example : said (addEdge (T := Str) (D := Nat) (Graph.addNode (fun t => (t, [s!!"x"])) three (.str s!!"p") 0 s!!"ROOT").2 s!!"p" s!!"b").1 =
    some "The type of the child is forbidden for this node" := by decide +kernel
example : said (allPaths s!!"ROOT" three s!!"a" s!!"b" 5) =
    some "The current graph is invalid with the following errors [{'UNCONNECTED_NODES': [\"it's\"]}]" := by decide +kernel
example : said (allPaths s!!"ROOT" (Graph.addEdge three s!!"b" s!!"it's").2 s!!"a" s!!"z" 5) = some "Could not find the node with id: z inside the graph" := by
  decide +kernel

example : said (version (F := Rat) s!!"3.x") = some "3.x is not a valid spine version. Needs to be of the following format 'mayor.minor.patch'" := by decide +kernel
example : said (getTags (F := Rat) s!!"arm[scale:2][ scale : 3]") = some "Found TAG [scale] repeated in name" := by decide +kernel
example : said (getTags (F := Rat) s!!"arm[scale:2][size:3]") = some "Found unsupported TAG [size] in arm[scale:2][size:3]" := by decide +kernel

/-- the first names are erased; the second "red" is the culprit -/
example : (Sample.load (Sample.doc [root] [slot "s" "root"] [("default", obj []), ("red", obj [])] [])).bind
    (fun e => said (eraseSkins [s!!"red", s!!"red", s!!"blue"] true e).1) = some "Trying to remove skin with name red but was not found" := by decide +kernel

example : said (attachments (obj [("s", obj [("a", region "i"), ("b", obj [("path", txt "i"), ("colour", txt "f"), ("it's", txt "f")])])])) =
    some ("Internal Error: sorry, some attributes ['colour', \"it's\"] are not supported in <class 'spine_json_lib.data.data_types.skin.SkinAttachment'>" ++
      ". Talk with product owner to add support to this spine feature") := by decide +kernel

example : said (check (F := Rat) s!!"<class 'C'>" [s!!"a", s!!"b"] [s!!"a"] [(s!!"b", .null)]) =
    some "Internal Error: missing required attributes {'a'} in <class 'C'>. Talk with product owner to add support to this spine feature" := by decide +kernel

/-- C26 is false without the hypothesis: "region" is refused by a message that says it is supported. -/
theorem c26_message_counterexample : said (attachments (obj [("s", obj [("a", region "i"), ("b", obj [("type", txt "region")])])])) =
    some ("Error: wrong skin attachment type region in id b when only ['mesh', 'path', 'slot', 'point', 'clipping', 'boundingbox', 'region'] are supported") ∧
    said (attachments (obj [("s", obj [("b", obj [("type", txt "linkedmesh")])])])) = none := by decide +kernel

/-- hypotheses of `c26_message_partial` -/
example : said (attachments (obj [("s", obj [("b", obj [("type", txt "sprite")])])])) =
    some ("Error: wrong skin attachment type sprite in id b when only ['mesh', 'path', 'slot', 'point', 'clipping', 'boundingbox', 'region'] are supported") := by
  decide +kernel

/-- the type and the attachment cannot be told apart in every message -/
theorem c93_ambiguous : (Msg.attType (txt "a in id b") s!!"c").text (fun _ => true) (fun _ => []) =
    (Msg.attType (txt "a") s!!"b in id c").text (fun _ => true) (fun _ => []) := by decide +kernel

end examples
end Messages
end Spine
