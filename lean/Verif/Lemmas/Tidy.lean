import Verif.Lemmas.EraseSkins
/- `images_references` over histories of calls, for documents whose attachments name their images. -/
set_option linter.unusedSectionVars false
set_option linter.unusedSimpArgs false
namespace Spine
open JVal Graph Container AnimData
variable {F : Type} [PyRt F]

/-- every attachment is a picture and has a name or a path, attachments of the same key show the same image, and skins have
different names -/
structure AnimData.Tidy (a : AnimData F) : Prop where
  skins : (a.skins.map (·.name)).Nodup
  picture : ∀ slot k x, a.HasAtt slot k x → x.kind = .region ∨ x.kind = .mesh ∨ x.kind = .linked
  named : ∀ slot k x, a.HasAtt slot k x → ¬ (x.NoText s!!"path" ∧ x.NoText s!!"name")
  one : ∀ slot slot' k x x' i i', a.HasAtt slot k x → a.HasAtt slot' k x' → ImageName k x i → ImageName k x' i' → i = i'

theorem AnimData.Tidy.noPath {a : AnimData F} (h : a.Tidy) (slot k : Str) (x : Att F) (hx : a.HasAtt slot k x) : x.kind ≠ .path := by
  rcases h.picture slot k x hx with e | e | e <;> rw [e] <;> decide

/-- `goneOf` reports the image of a named picture -/
theorem goneOf_image {x : Att F} {l : List Gone} (h : goneOf x = .ok l) (hk : x.kind = .region ∨ x.kind = .mesh ∨ x.kind = .linked) {k i : Str}
    (hn : ¬ (x.NoText s!!"path" ∧ x.NoText s!!"name")) (hi : ImageName k x i) : Gone.image (some i) ∈ l ∨ Gone.region i ∈ l := by
  have text : ∀ {k o}, x.strAttr k = .ok o → (∀ t, o = some t ↔ Dict.get? x.attrs k = some (.str t)) := by
    intro k o ho t
    unfold Att.strAttr at ho
    split at ho
    · cases ho
    · rename_i v hv
      rw [hv]
      cases v <;> simp only [optStr, Except.ok.injEq] at ho <;> first | (cases ho; done) | (subst ho; simp; try exact ⟨fun h => h, fun h => h⟩)
  have hpath : ∀ {p}, x.strAttr s!!"path" = .ok p → ∀ {j}, pyOr p none = some j → j = i := by
    intro p hp j hj
    unfold pyOr at hj
    split at hj
    · rename_i c s
      injection hj with hj
      subst hj
      exact ImageName.unique (.path ((text hp _).1 rfl) (by simp)) hi
    · cases hj
  have hname : ∀ {p n}, x.strAttr s!!"path" = .ok p → x.strAttr s!!"name" = .ok n → pyOr p none = none → pyOr p n = some i := by
    intro p n hp hn' hj
    have e1 : pyOr p n = n := by
      unfold pyOr at hj ⊢
      split
      · simp at hj
      · rfl
    have np : x.NoText s!!"path" := by
      intro t ht
      have := (text hp t).2 ht
      subst this
      cases t with
      | nil => rfl
      | cons c t => simp [pyOr] at hj
    rw [e1]
    cases hi with
    | path e n0 => exact absurd (np _ e) n0
    | name _ e _ => exact (text hn' _).2 e
    | key _ q => exact absurd ⟨np, q⟩ hn
  unfold goneOf at h
  split at h
  · obtain ⟨p, hp, h⟩ := bindOk h
    split at h
    · rename_i j hj
      injection h with h
      rw [← h, hpath hp hj]; simp
    · rename_i hj
      obtain ⟨n, hn', h⟩ := bindOk h
      rw [hname hp hn' hj] at h
      injection h with h
      rw [← h]; simp
  all_goals first
    | (rename_i hkk
       obtain ⟨p, hp, h⟩ := bindOk h
       split at h
       · rename_i j hj
         injection h with h
         rw [← h, hpath hp hj]; simp
       · rename_i hj
         obtain ⟨n, hn', h⟩ := bindOk h
         rw [hname hp hn' hj] at h
         injection h with h
         rw [← h]; simp)
    | skip
  rename_i h1 h2 h3
  rcases hk with hk | hk | hk
  · exact absurd hk h1
  · exact absurd hk h2
  · exact absurd hk h3

theorem removedImages_image {s : Skin F} {r : List (Option Str) × List Str} (h : removedImages s = .ok r) {slot k i : Str} {d : Dict (Att F)} {x : Att F}
    (hd : (slot, d) ∈ s.attachments) (hx : (k, x) ∈ d) (hk : x.kind = .region ∨ x.kind = .mesh ∨ x.kind = .linked)
    (hn : ¬ (x.NoText s!!"path" ∧ x.NoText s!!"name")) (hi : ImageName k x i) : some i ∈ r.1 ∨ i ∈ r.2 := by
  unfold removedImages at h
  obtain ⟨l, hl, h⟩ := bindOk h
  injection h with h
  subst h
  have hm : x ∈ skinAtts s := List.mem_flatMap.2 ⟨_, hd, List.mem_map.2 ⟨_, hx, rfl⟩⟩
  obtain ⟨g, hg, hgo⟩ := ((mapE_all₂ _ _ _).1 hl).left hm
  rcases goneOf_image hgo hk hn hi with h | h
  · exact .inl (List.mem_filterMap.2 ⟨_, List.mem_flatten.2 ⟨g, hg, h⟩, rfl⟩)
  · exact .inr (List.mem_filterMap.2 ⟨_, List.mem_flatten.2 ⟨g, hg, h⟩, rfl⟩)

namespace Editor
variable {e e' : Editor F} {ids atts slots L A B I : List Str} {g0 g1 g2 g3 : SGraph F} {bs : List (Bone F)}
    {ss : List (Slot F)} {is : List (Attrs F)} {an : Dict (Anim F)}

/-- an image node of the graph stands for an image of the skins -/
def ImgEdge (e : Editor F) : Prop := ∀ k i, Edge e.graph (graphId .attachment k) (graphId .image i) → ∃ slot x, e.data.HasAtt slot k x ∧ ImageName k x i

/-- the images of a graph just built -/
theorem imgEdge_fresh (hs : Sync e) (hg : SpineNodes.create e.toJson = .ok e.graph) :
    ImgEdge e ∧ ∀ i, HasNode e.graph (graphId .image i) → ∃ slot k x, e.data.HasAtt slot k x ∧ ImageName k x i := by
  have hg' : SpineNodes.create e.doc.toJson = .ok e.graph := hg
  obtain ⟨sh, h1, h2⟩ := GShape.create_built hg'
  have hsh := GShape.read_toJson e.doc hs.ecore.bones hs.distinct hs.sane h1
  have att : ∀ s ∈ sh.slots, ∀ a ∈ s.atts, ∃ x, e.data.HasAtt s.name a.1 x ∧ ImageName a.1 x a.2.1 := by
    intro s hs a ha
    obtain ⟨v, hv, e1, _, _, e4⟩ := hsh.slots.right hs
    obtain ⟨x, hx, _, hi⟩ := (e4 a.1 a.2.1 a.2.2).1 ha
    exact ⟨x, e1 ▸ hx, hi⟩
  refine ⟨?_, ?_⟩
  · intro k i h
    rcases edge_cases ((h2.edge _ _).1 h) with ⟨a, b, h, _⟩ | ⟨a, b, h, _⟩ | ⟨s, hs, a, ha, h, h'⟩ | ⟨s, hs, a, ha, h, h'⟩ | ⟨a, b, h, _⟩ | ⟨a, b, h, _⟩
    all_goals first
      | (cases (graphId_inj h).1; done)
      | skip
    obtain ⟨x, hx, hi⟩ := att s hs a ha
    rw [(graphId_inj h).2, (graphId_inj h').2]
    exact ⟨_, x, hx, hi⟩
  · intro i h
    obtain ⟨s, hs, a, ha, rfl⟩ := (h2.has_image i).1 h
    obtain ⟨x, hx, hi⟩ := att s hs a ha
    exact ⟨_, _, x, hx, hi⟩

/-- after cleaning, an attachment of the graph has a slot and an image of the graph has an attachment -/
theorem CleanRun.att_slot (hs : Sync e) (hr : CleanRun e e' ids atts slots L A B I g0 g1 g2 g3 bs ss is an) {k : Str}
    (h : HasNode e'.graph (graphId .attachment k)) : ∃ n, Edge e'.graph (graphId .slot n) (graphId .attachment k) := by
  rw [hr.graph, hasNode_restrict, hr.hg3, hasNode_restrict, hr.hg2, hasNode_restrict] at h
  obtain ⟨⟨⟨h1, h2⟩, h3⟩, h4⟩ := h
  have hp : ∀ p, Edge g1 p (graphId .attachment k) → ∃ n, p = graphId .slot n := by
    intro p hp
    rw [hr.nodes1, edge_restrict] at hp
    exact hs.att_parent _ _ hp.1
  rw [hr.hA, doomed_edge (hr.core1 hs) h1 (fun p he => by obtain ⟨n, rfl⟩ := hp p he; exact ⟨.slot, n, by decide, rfl⟩)] at h2
  obtain ⟨p, hpe⟩ := Classical.not_forall.1 h2
  have hpe := Classical.not_not.1 hpe
  obtain ⟨n, rfl⟩ := hp p hpe
  refine ⟨n, ?_⟩
  rw [hr.graph, edge_restrict, hr.hg3, edge_restrict, hr.hg2, edge_restrict]
  refine ⟨⟨⟨hpe, ?_, ?_⟩, ?_, h3⟩, ?_, h4⟩
  · intro h; cases hr.typeA hs h
  · rw [hr.hA, doomed_edge (hr.core1 hs) h1 (fun p he => by obtain ⟨n, rfl⟩ := hp p he; exact ⟨.slot, n, by decide, rfl⟩)]
    exact fun hno => hno _ hpe
  · intro h; cases hr.typeB hs h
  · intro h; cases hr.typeI hs h

theorem CleanRun.img_att (hs : Sync e) (hr : CleanRun e e' ids atts slots L A B I g0 g1 g2 g3 bs ss is an) {i : Str}
    (h : HasNode e'.graph (graphId .image i)) : ∃ k, Edge e'.graph (graphId .attachment k) (graphId .image i) := by
  rw [hr.graph, hasNode_restrict] at h
  obtain ⟨h1, h2⟩ := h
  have hp : ∀ p, Edge g3 p (graphId .image i) → ∃ n, p = graphId .attachment n := by
    intro p hp
    rw [hr.hg3, edge_restrict, hr.hg2, edge_restrict, hr.nodes1, edge_restrict] at hp
    exact hs.img_parent _ _ hp.1.1.1
  rw [hr.hI, doomed_edge (hr.core3 hs) h1 (fun p he => by obtain ⟨n, rfl⟩ := hp p he; exact ⟨.attachment, n, by decide, rfl⟩)] at h2
  obtain ⟨p, hpe⟩ := Classical.not_forall.1 h2
  have hpe := Classical.not_not.1 hpe
  obtain ⟨k, rfl⟩ := hp p hpe
  refine ⟨k, ?_⟩
  rw [hr.graph, edge_restrict]
  refine ⟨hpe, fun h => (by cases hr.typeI hs h), ?_⟩
  rw [hr.hI, doomed_edge (hr.core3 hs) h1 (fun p he => by obtain ⟨n, rfl⟩ := hp p he; exact ⟨.attachment, n, by decide, rfl⟩)]
  exact fun hno => hno _ hpe

theorem Tidy.mono {a a' : AnimData F} (h : a.Tidy) (hs : ∀ slot k x, a'.HasAtt slot k x → a.HasAtt slot k x)
    (hn : a'.skins.map (·.name) = a.skins.map (·.name)) : a'.Tidy :=
  ⟨hn ▸ h.skins, fun _ _ _ hx => h.picture _ _ _ (hs _ _ _ hx), fun _ _ _ hx => h.named _ _ _ (hs _ _ _ hx),
    fun _ _ _ _ _ _ _ hx hx' => h.one _ _ _ _ _ _ _ (hs _ _ _ hx) (hs _ _ _ hx')⟩

theorem clean_tidy (hs : Sync e) (ht : e.data.Tidy) (hi : ImgEdge e) {r : List Str × List Str} (h : clean e = (.ok r, e')) :
    e'.data.Tidy ∧ ImgEdge e' ∧ ∀ i, i ∈ Dict.keys e'.images → i ∈ Dict.keys e.images ∧ (e.data.UsesImage i → e'.data.UsesImage i) := by
  have hs' := sync_clean hs h
  obtain ⟨slots, L, A, B, I, g0, g1, g2, g3, bs, ss, is, an, hr⟩ := clean_run hs.core (ids := r.1) (atts := r.2) h
  have hsub : ∀ slot k x, e'.data.HasAtt slot k x → e.data.HasAtt slot k x := fun slot k x hx => ((hr.hasAtt hs slot k x).1 hx).1
  have ht' := Tidy.mono ht hsub (by rw [hr.result_skins hs, List.map_map]; rfl)
  have hedge : ∀ k i, Edge e'.graph (graphId .attachment k) (graphId .image i) → ∃ slot x, e'.data.HasAtt slot k x ∧ ImageName k x i := by
    intro k i he
    obtain ⟨n, hn⟩ := hr.att_slot hs (wf_edge_nodes hs'.core.wf he).1
    obtain ⟨k', x, e1, hx⟩ := hs'.edge_slot _ _ hn
    have e1 := (graphId_inj e1).2
    subst e1
    have he0 : Edge e.graph (graphId .attachment k) (graphId .image i) := by
      rw [hr.graph_eq, edge_restrict] at he; exact he.1
    obtain ⟨slot, x0, hx0, hi0⟩ := hi k i he0
    obtain ⟨j, hj⟩ := ImageName.exists k x
    have := ht.one _ _ _ _ _ _ _ (hsub _ _ _ hx) hx0 hj hi0
    exact ⟨n, x, hx, this ▸ hj⟩
  refine ⟨ht', hedge, ?_⟩
  intro i hm
  rw [hr.images] at hm
  obtain ⟨⟨j, v⟩, hmem, rfl⟩ := List.mem_map.1 hm
  obtain ⟨h1, h2⟩ := List.mem_filter.1 hmem
  refine ⟨List.mem_map.2 ⟨_, h1, rfl⟩, ?_⟩
  rintro ⟨slot, k, x, hx, _, hii⟩
  simp only at hii ⊢
  have hnode : HasNode e.graph (graphId .image j) := (wf_edge_nodes hs.core.wf (hs.img_of _ _ _ _ hx hii)).2
  have hnI : graphId .image j ∉ I := by
    intro hI
    have : j ∈ I.map (baseId .image) := List.mem_map.2 ⟨_, hI, (baseId_eq_iff .image j).2 (hs.imgs j hnode)⟩
    simp at h2
    exact h2 _ hI ((baseId_eq_iff .image j).2 (hs.imgs j hnode))
  have hnode' : HasNode e'.graph (graphId .image j) := by
    rw [hr.graph, hasNode_restrict, hr.hg3, hasNode_restrict, hr.hg2, hasNode_restrict, hr.nodes1, hasNode_restrict]
    refine ⟨⟨⟨⟨hnode, ?_⟩, fun h => (by cases hr.typeA hs h)⟩, fun h => (by cases hr.typeB hs h)⟩, hnI⟩
    rw [List.mem_append, mem_namedIds, hr.mem_L hs]
    rintro ((⟨h, _⟩ | ⟨h, _⟩) | ⟨h, _⟩) <;> cases h
  obtain ⟨k', he⟩ := hr.img_att hs hnode'
  obtain ⟨slot', x', hx', hi'⟩ := hedge k' j he
  exact ⟨slot', k', x', hx', ht'.noPath _ _ _ hx', hi'⟩

/-- the invariant: the graph shows the skins, and the listed images are in use -/
structure TidySync (e : Editor F) : Prop where
  sync : Sync e
  tidy : e.data.Tidy
  edge : ImgEdge e
  only : ∀ i ∈ Dict.keys e.images, e.data.UsesImage i

theorem tidy_clean (hs : TidySync e) {r : List Str × List Str} (h : clean e = (.ok r, e')) : TidySync e' := by
  obtain ⟨h1, h2, h3⟩ := clean_tidy hs.sync hs.tidy hs.edge h
  exact ⟨sync_clean hs.sync h, h1, h2, fun i hi => (h3 i hi).2 (hs.only i (h3 i hi).1)⟩

theorem removeSkin_tidy {n : Str} {a a' : AnimData F} {r : List (Option Str) × List Str} (ht : a.Tidy) (h : removeSkin n a = (.ok r, a')) :
    a'.Tidy ∧ ∀ i, a.UsesImage i → a'.UsesImage i ∨ some i ∈ r.1 ∨ i ∈ r.2 := by
  have hfrom := fun slot k x' (hx : a'.HasAtt slot k x') => removeSkin_from h hx
  have himg : ∀ slot k x', a'.HasAtt slot k x' → ∃ x, a.HasAtt slot k x ∧ ∀ i, ImageName k x' i ↔ ImageName k x i := by
    intro slot k x' hx
    obtain ⟨x, hx0, rfl | ⟨_, p, _, rfl⟩⟩ := hfrom slot k x' hx
    · exact ⟨_, hx0, fun _ => Iff.rfl⟩
    · exact ⟨x, hx0, fun _ => relinked_image p x⟩
  have ht' : a'.Tidy := by
    refine ⟨?_, ?_, ?_, ?_⟩
    · obtain ⟨gone, _, _, hsk, _⟩ := removeSkin_skins h
      rw [← hsk.map_eq (f := fun s => s.name) (g := fun s => s.name) (fun _ _ h => h.1.symm)]
      exact ht.skins.sublist (List.filter_sublist.map _)
    · intro slot k x' hx
      obtain ⟨x, hx0, e1 | ⟨_, p, hp, e1⟩⟩ := hfrom slot k x' hx
      · rw [e1]; exact ht.picture _ _ _ hx0
      · rw [e1]; exact ht.picture _ _ p hp
    · intro slot k x' hx
      obtain ⟨x, hx0, rfl | ⟨_, p, hp, rfl⟩⟩ := hfrom slot k x' hx
      · exact ht.named _ _ _ hx0
      · rw [relinked_noText p x (by simp), relinked_noText p x (by simp)]
        exact ht.named _ _ _ hx0
    · intro slot slot' k x x' i i' hx hx' hi hi'
      obtain ⟨y, hy, ey⟩ := himg _ _ _ hx
      obtain ⟨y', hy', ey'⟩ := himg _ _ _ hx'
      exact ht.one _ _ _ _ _ _ _ hy hy' ((ey i).1 hi) ((ey' i').1 hi')
  refine ⟨ht', ?_⟩
  obtain ⟨gone, sk, h1, h2, h3, ha⟩ := removeSkin_ok h
  rintro i ⟨slot, k, x, ⟨s, hs, d, hd, hx⟩, hk, hi⟩
  obtain ⟨s', hs', hr⟩ := h2.left hs
  by_cases hn : s.name = n
  · right
    have hsg : s = gone := nodup_map_inj ht.skins hs (getSkin_mem h1).1 (hn.trans (getSkin_mem h1).2.symm)
    subst hsg
    exact removedImages_image h3 hd hx (ht.picture _ _ _ ⟨s, hs, d, hd, hx⟩) (ht.named _ _ _ ⟨s, hs, d, hd, hx⟩) hi
  · left
    rcases hr.2 with ⟨e, _⟩ | ⟨_, hr2⟩
    · exact absurd e hn
    obtain ⟨⟨slot', d'⟩, hd', e1, hr2⟩ := hr2.left hd
    obtain ⟨⟨k', x'⟩, hx', e2, hr2⟩ := hr2.left hx
    simp only at e1 e2 hr2
    subst e1 e2
    have hh : a'.HasAtt slot' k' x' := by
      rw [ha]
      exact ⟨s', List.mem_filter.2 ⟨hs', by simpa [hr.1] using hn⟩, d', hd', hx'⟩
    refine ⟨slot', k', x', hh, ht'.noPath _ _ _ hh, ?_⟩
    cases hr2 with
    | same _ => exact hi
    | copy _ _ _ => exact (relinked_image _ _).2 hi

theorem removeSkins_tidy {names : List Str} : ∀ {a a' : AnimData F} {r : List (Option Str) × List Str}, a.Tidy →
    removeSkins names a = (.ok r, a') → a'.Tidy ∧ ∀ i, a.UsesImage i → a'.UsesImage i ∨ some i ∈ r.1 ∨ i ∈ r.2 := by
  induction names with
  | nil =>
    intro a a' r ht h
    simp only [removeSkins, Prod.mk.injEq] at h
    rw [← h.2]
    exact ⟨ht, fun i hi => .inl hi⟩
  | cons n ns ih =>
    intro a a' r ht h
    obtain ⟨i, s, is, rs, a1, h1, h2, rfl⟩ := removeSkins_cons h
    obtain ⟨t1, u1⟩ := removeSkin_tidy ht h1
    obtain ⟨t2, u2⟩ := ih t1 h2
    refine ⟨t2, ?_⟩
    intro j hj
    simp only [List.mem_append]
    rcases u1 j hj with hj | hj | hj
    · rcases u2 j hj with h | h | h
      · exact .inl h
      · exact .inr (.inl (.inr h))
      · exact .inr (.inr (.inr h))
    · exact .inr (.inl (.inl hj))
    · exact .inr (.inr (.inl hj))

theorem tidy_eraseSkins {names : List Str} {safe : Bool} {r : List Str × List Str} {gone : List (Option Str)} (hs : TidySync e)
    (h : eraseSkins names safe e = (.ok (r, gone), e')) : TidySync e' := by
  have hsync := sync_eraseSkins hs.sync h
  obtain ⟨imgs, regions, a, g, e1, h1, h2, h3, h4, he⟩ := eraseSkins_ok h
  have s1 := sync_removeSkins hs.sync h1 h2
  obtain ⟨t1, u1⟩ := removeSkins_tidy hs.tidy h1
  obtain ⟨f1, f2⟩ := imgEdge_fresh s1 h2
  -- an image used before is used after, or reported
  have hrep : ∀ i, e.data.UsesImage i → a.UsesImage i ∨ some i ∈ gone := by
    intro i hi
    by_cases hn : HasNode g (graphId .image i)
    · obtain ⟨slot, k, x, hx, hi'⟩ := f2 i hn
      exact .inl ⟨slot, k, x, hx, t1.noPath _ _ _ hx, hi'⟩
    · rcases u1 i hi with hu | hu
      · exact .inl hu
      · right
        rw [h3]
        refine List.mem_filter.2 ⟨?_, ?_⟩
        · rcases hu with hu | hu
          · exact List.mem_append.2 (.inl hu)
          · exact List.mem_append.2 (.inr (List.mem_map.2 ⟨i, hu, rfl⟩))
        · show (Graph.getNode g (graphId .image i)).isNone = true
          cases hg : Graph.getNode g (graphId .image i) with
          | none => rfl
          | some nd => exact absurd ⟨nd, hg⟩ hn
  subst he
  have keysub : ∀ i, i ∈ Dict.keys (cleanImages gone e1).images → i ∈ Dict.keys e1.images ∧ some i ∉ gone := by
    intro i hi
    obtain ⟨⟨j, v⟩, hm, rfl⟩ := List.mem_map.1 hi
    obtain ⟨k1, k2⟩ := List.mem_filter.1 hm
    exact ⟨List.mem_map.2 ⟨_, k1, rfl⟩, by simpa using k2⟩
  unfold cleanUnless at h4
  split at h4
  · simp only [Prod.mk.injEq] at h4
    obtain ⟨_, rfl⟩ := h4
    refine ⟨hsync, t1, f1, ?_⟩
    intro i hi
    obtain ⟨k1, k2⟩ := keysub i hi
    rcases hrep i (hs.only i k1) with h | h
    · exact h
    · exact absurd h k2
  · obtain ⟨c1, c2, c3⟩ := clean_tidy s1 t1 f1 h4
    refine ⟨hsync, c1, c2, ?_⟩
    intro i hi
    obtain ⟨k1, k2⟩ := keysub i hi
    obtain ⟨c4, c5⟩ := c3 i k1
    rcases hrep i (hs.only i c4) with h | h
    · exact c5 h
    · exact absurd h k2

theorem tidy_congr {a : AnimData F} (hs : TidySync e) (he : Sync (e.withData a)) (ha : a.skins = e.data.skins) : TidySync (e.withData a) := by
  have hh : ∀ slot k x, a.HasAtt slot k x ↔ e.data.HasAtt slot k x := by
    intro slot k x; unfold AnimData.HasAtt; rw [ha]
  refine ⟨he, Tidy.mono hs.tidy (fun slot k x h => (hh slot k x).1 h) (by show a.skins.map _ = _; rw [ha]), ?_, ?_⟩
  · intro k i h
    obtain ⟨slot, x, hx, hi⟩ := hs.edge k i h
    exact ⟨slot, x, (hh _ _ _).2 hx, hi⟩
  · intro i hi
    obtain ⟨slot, k, x, hx, hk, hi⟩ := hs.only i hi
    exact ⟨slot, k, x, (hh _ _ _).2 hx, hk, hi⟩

theorem tidy_eraseAnims {arg : NamesArg} {strict safe : Bool} {r : JVal F × List Str × List Str} (hs : TidySync e)
    (h : eraseAnims arg strict safe e = (.ok r, e')) : TidySync e' := by
  have hsync := sync_eraseAnims hs.sync h
  unfold eraseAnims at h
  split at h
  · simp at h
  · rename_i names
    simp only at h
    split at h
    · simp at h
    · have key : ∀ d, Sync (e.withData { e.data with animations := d }) → TidySync (e.withData { e.data with animations := d }) :=
        fun d hd => tidy_congr hs hd rfl
      rw [eraseRaw_fst] at h
      have h1 := key _ (sync_filterAnims hs.sync (fun p => decide (p.1 ∉ names)))
      split at h
      · simp at h
      · rename_i r' e1 hc
        simp only [Prod.mk.injEq] at h
        obtain ⟨_, rfl⟩ := h
        unfold cleanUnless at hc
        split at hc
        · simp only [Prod.mk.injEq] at hc
          rw [← hc.2]; exact h1
        · exact tidy_clean h1 hc

theorem tidy_eraseAnims_safe {arg : NamesArg} {strict : Bool} (hs : TidySync e) : TidySync (eraseAnims arg strict true e).2 := by
  have hsync := sync_eraseAnims_safe (arg := arg) (strict := strict) hs.sync
  unfold eraseAnims at hsync ⊢
  split
  · exact hs
  · rename_i names
    simp only at hsync ⊢
    split
    · rename_i h; rw [if_pos h] at hsync; exact tidy_congr hs hsync rfl
    · rename_i h; rw [if_neg h] at hsync; exact tidy_congr hs hsync rfl

theorem tidy_scale (sx sy : Num F) (hs : TidySync e) : TidySync (scale sx sy e).2 := by
  have h := sync_scale sx sy hs.sync
  rw [scale_frame] at h ⊢
  exact tidy_congr hs h rfl

theorem tidy_load {doc : JVal F} (hp : doc.Proper) (h : load doc = .ok e) (hn : e.data.NamesOk) (ht : e.data.Tidy) : TidySync e := by
  have hs := sync_load hp h hn
  exact ⟨hs, ht, (imgEdge_fresh hs (load_ok h).2.2).1, (c48_load h).1⟩

/-- the histories of `Ran`, from a tidy document -/
inductive RanTidy : Editor F → Prop
  | load {doc : JVal F} {e : Editor F} : doc.Proper → load doc = .ok e → e.data.NamesOk → e.data.Tidy → RanTidy e
  | run {e e' : Editor F} (o : Op F) : RanTidy e → o.run e = (.ok (), e') → RanTidy e'
  | scaled {e : Editor F} (sx sy : Num F) : RanTidy e → RanTidy (scale sx sy e).2
  | failedErase {e : Editor F} (arg : NamesArg) (strict : Bool) : RanTidy e → RanTidy (eraseAnims arg strict true e).2

theorem RanTidy.sync (h : RanTidy e) : TidySync e := by
  induction h with
  | load h1 h2 h3 h4 => exact tidy_load h1 h2 h3 h4
  | run o _ h ih =>
    cases o with
    | eraseSkins n s => obtain ⟨r, gone, h⟩ := run_eraseSkins h; exact tidy_eraseSkins ih h
    | eraseAnims arg t s => obtain ⟨r, h⟩ := run_eraseAnims h; exact tidy_eraseAnims ih h
    | clean => obtain ⟨r, h⟩ := run_clean h; exact tidy_clean ih h
    | scale sx sy =>
      have := tidy_scale sx sy ih
      have h : scale sx sy _ = _ := h
      rw [h] at this; exact this
  | scaled sx sy _ ih => exact tidy_scale sx sy ih
  | failedErase arg strict _ ih => exact tidy_eraseAnims_safe ih

end Editor
end Spine
