import Verif.Lemmas.CleanTotal
import Verif.Lemmas.SkinOps
/- What remains of the agreement between graph and data for documents with arbitrary names, and after calls that failed. -/
set_option linter.unusedSectionVars false
set_option linter.unusedSimpArgs false
namespace Spine
open JVal Graph Container
variable {F : Type} [PyRt F]

namespace Editor

/-- every attachment of the data is in the graph, below its slot and above its image -/
structure Weak (e : Editor F) : Prop where
  ecore : ECore e
  dflt : e.data.setDefaults e.doc.version.is38 = e.data
  slots : All₂ (fun p (x : Slot F) => p.1 = graphId .slot x.name ∧ ∃ y : Slot F, p.2.2 = y.toJson e.doc.version.is38 ∧
    (x = y ∨ x = { y with attachment := none })) (nodesOf e.graph .slot) e.data.slots
  edge_of : ∀ slot k x, e.data.HasAtt slot k x → Edge e.graph (graphId .slot slot) (graphId .attachment k)
  edge_bone : ∀ n y, Edge e.graph (graphId .slot n) y → ∃ s ∈ e.data.slots, s.name = n ∧ s.bone ≠ none
  att_parent : ∀ p k, Edge e.graph p (graphId .attachment k) → ∃ n, p = graphId .slot n
  att_child : ∀ k c, Edge e.graph (graphId .attachment k) c → ∃ i, c = graphId .image i
  img_parent : ∀ p i, Edge e.graph p (graphId .image i) → ∃ k, p = graphId .attachment k
  img_of : ∀ slot k x i, e.data.HasAtt slot k x → ImageName k x i → Edge e.graph (graphId .attachment k) (graphId .image i)
  distinct : e.data.Distinct
  sane : e.data.SaneAtts
  anims : e.data.DistinctAnims

variable {e e' : Editor F} {ids atts slots L A B I : List Str} {g0 g1 g2 g3 : SGraph F} {bs : List (Bone F)}
    {ss : List (Slot F)} {is : List (Attrs F)} {an : Dict (Anim F)}

theorem Sync.toWeak (h : Sync e) : Weak e where
  ecore := h.ecore
  dflt := h.dflt
  slots := h.slots.mono (fun _ x _ h => ⟨h.1, x, h.2, .inl rfl⟩)
  edge_of := h.edge_of
  edge_bone := by
    intro n y hy
    obtain ⟨k, x, _, hx⟩ := h.edge_slot n y hy
    exact h.slot_bone _ _ _ hx
  att_parent := h.att_parent
  att_child := h.att_child
  img_parent := h.img_parent
  img_of := h.img_of
  distinct := h.distinct
  sane := h.sane
  anims := h.anims

namespace Weak

theorem core (h : Weak e) : Core e.doc.version.is38 e.graph := h.ecore.core

theorem slot_bone (h : Weak e) (slot k : Str) (x : Att F) (hx : e.data.HasAtt slot k x) : ∃ s ∈ e.data.slots, s.name = slot ∧ s.bone ≠ none :=
  h.edge_bone _ _ (h.edge_of slot k x hx)

theorem hasSlot (h : Weak e) (n : Str) : HasNode e.graph (graphId .slot n) ↔ ∃ s ∈ e.data.slots, s.name = n := by
  constructor
  · rintro ⟨nd, hn⟩
    have ht := h.core.typed' hn
    obtain ⟨s, hs, hp, _⟩ := h.slots.left ((mem_nodesOf h.core.wf .slot _ nd.data).2 ⟨nd, hn, ht, rfl⟩)
    exact ⟨s, hs, (graphId_inj hp).2.symm⟩
  · rintro ⟨s, hs, rfl⟩
    obtain ⟨⟨x, d⟩, hp, hx, _⟩ := h.slots.right hs
    obtain ⟨nd, hn, _, _⟩ := (mem_nodesOf h.core.wf .slot x d).1 hp
    simp only at hx
    exact ⟨nd, hx ▸ hn⟩

theorem slotNames (h : Weak e) : (e.data.slots.map (·.name)).Nodup := by
  have h1 := nodesOf_ids_nodup h.core.wf .slot
  rw [h.slots.map_eq (f := fun p => p.1) (g := fun s => graphId .slot s.name) (fun _ _ h => h.1)] at h1
  have : e.data.slots.map (fun s => graphId .slot s.name) = (e.data.slots.map (·.name)).map (graphId .slot) := by simp
  rw [this] at h1
  rw [List.nodup_iff_pairwise_ne, List.pairwise_map] at h1
  exact h1.imp (fun hne e => hne (by rw [e]))

end Weak

/-! ### A graph just built -/

theorem weak_fresh {e : Editor F} (hb : ∀ b ∈ e.data.bones, Bone.Good b) (hi : KeysOf ikCls e.data.ik)
    (hd : e.data.setDefaults e.doc.version.is38 = e.data) (hdi : e.data.Distinct) (hx : e.data.SaneAtts)
    (han : e.data.DistinctAnims)
    (hsb : ∀ slot k x, e.data.HasAtt slot k x → ∃ s ∈ e.data.slots, s.name = slot ∧ s.bone ≠ none)
    (hg : SpineNodes.create e.toJson = .ok e.graph) : Weak e := by
  have hg' : SpineNodes.create e.doc.toJson = .ok e.graph := hg
  obtain ⟨sh, h1, h2⟩ := GShape.create_built hg'
  have hsh := GShape.read_toJson e.doc hb hdi hx h1
  have att : ∀ s ∈ sh.slots, ∀ a ∈ s.atts, ∃ x, e.data.HasAtt s.name a.1 x ∧ ImageName a.1 x a.2.1 := by
    intro s hs a ha
    obtain ⟨v, hv, e1, _, _, e4⟩ := hsh.slots.right hs
    obtain ⟨x, hx, _, hi⟩ := (e4 a.1 a.2.1 a.2.2).1 ha
    exact ⟨x, e1 ▸ hx, hi⟩
  have att' : ∀ slot k x i, e.data.HasAtt slot k x → ImageName k x i → ∃ s ∈ sh.slots, s.name = slot ∧ ∃ a ∈ s.atts, a.1 = k ∧ a.2.1 = i := by
    intro slot k x i h hi
    obtain ⟨v, hv, hvn, _⟩ := hsb slot k x h
    obtain ⟨s, hs, e1, _, _, e4⟩ := hsh.slots.left hv
    subst hvn
    exact ⟨s, hs, e1, _, (e4 k i _).2 ⟨x, h, rfl, hi⟩, rfl, rfl⟩
  refine ⟨⟨core_fresh hg' hb hi, hb, hi⟩, hd, (nodesOf_fresh hg').2.1.mono (fun _ x _ h => ⟨h.1, x, h.2, .inl rfl⟩), ?_, ?_, ?_, ?_, ?_, ?_, hdi, hx, han⟩
  · intro slot k x h
    obtain ⟨i, hi⟩ := ImageName.exists k x
    obtain ⟨s, hs, rfl, a, ha, rfl, _⟩ := att' slot k x i h hi
    exact (h2.edge _ _).2 (.att hs ha)
  · intro n y h
    rcases edge_cases ((h2.edge _ _).1 h) with ⟨a, b, h, _⟩ | ⟨a, b, h, _⟩ | ⟨s, hs, a, ha, h, h'⟩ | ⟨s, hs, a, ha, h, h'⟩ | ⟨a, b, h, _⟩ | ⟨a, b, h, _⟩
    all_goals first
      | (cases (graphId_inj h).1; done)
      | skip
    obtain ⟨x, hx, _⟩ := att s hs a ha
    rw [(graphId_inj h).2]
    exact hsb _ _ _ hx
  · intro p k h
    rcases edge_cases ((h2.edge _ _).1 h) with ⟨a, b, _, h⟩ | ⟨a, b, _, h⟩ | ⟨s, hs, a, ha, h', h⟩ | ⟨s, hs, a, ha, h', h⟩ | ⟨a, b, _, h⟩ | ⟨a, b, _, h⟩
    all_goals first
      | (cases (graphId_inj h).1; done)
      | skip
    exact ⟨_, h'⟩
  · intro k c h
    rcases edge_cases ((h2.edge _ _).1 h) with ⟨a, b, h, _⟩ | ⟨a, b, h, _⟩ | ⟨s, hs, a, ha, h, h'⟩ | ⟨s, hs, a, ha, h, h'⟩ | ⟨a, b, h, _⟩ | ⟨a, b, h, _⟩
    all_goals first
      | (cases (graphId_inj h).1; done)
      | skip
    exact ⟨_, h'⟩
  · intro p k h
    rcases edge_cases ((h2.edge _ _).1 h) with ⟨a, b, _, h⟩ | ⟨a, b, _, h⟩ | ⟨s, hs, a, ha, h', h⟩ | ⟨s, hs, a, ha, h', h⟩ | ⟨a, b, _, h⟩ | ⟨a, b, _, h⟩
    all_goals first
      | (cases (graphId_inj h).1; done)
      | skip
    exact ⟨_, h'⟩
  · intro slot k x i h hi
    obtain ⟨s, hs, rfl, a, ha, rfl, rfl⟩ := att' slot k x i h hi
    exact (h2.edge _ _).2 (.image hs ha)

theorem weak_load {doc : JVal F} (hp : doc.Proper) (h : load doc = .ok e) : Weak e := by
  obtain ⟨h1, h2, h3, h4⟩ := load_data h
  obtain ⟨l1, l2, l3⟩ := load_ok h
  obtain ⟨d, v, a, rfl, _, _, _, hi, hd⟩ := SpineDoc.load_ok l1
  obtain ⟨d1, d2⟩ := AnimData.keys_init hp hi
  obtain ⟨d1, d2⟩ := AnimData.distinct_setDefaults e.doc.version.is38 d1 d2
  rw [← hd] at d1 d2
  have spec := imagesReferences_spec l2
  refine weak_fresh h1 h3 h4 d1 ?_ d2 ?_ l3
  · rintro slot k x ⟨s, hs, m, hm, hx⟩
    exact Att.Good.sane (h2 s hs _ hm _ hx)
  · rintro slot k x ⟨s, hs, m, hm, hx⟩
    obtain ⟨y, s', x', xs, ⟨l, r, e1, e2, _⟩, _, hr, _⟩ := spec.2.2.2.1 s hs _ hm
    refine ⟨s', by show s' ∈ e.doc.data.slots; rw [e1]; simp, e2, ?_⟩
    intro hb
    rw [hb] at hr
    cases hr

/-! ### clean_animation -/

namespace Weak

theorem core0 (hs : Weak e) (hr : CleanStart e ids atts slots L g0 g1) : Core e.doc.version.is38 g0 := by rw [hr.hg0]; exact hs.core.restrict _

theorem core1 (hs : Weak e) (hr : CleanStart e ids atts slots L g0 g1) : Core e.doc.version.is38 g1 := by rw [hr.hg1]; exact (hs.core0 hr).restrict _

theorem core2 (hs : Weak e) (hr : CleanRun e e' ids atts slots L A B I g0 g1 g2 g3 bs ss is an) :
    Core e.doc.version.is38 g2 := by rw [hr.hg2]; exact (hs.core1 hr.toCleanStart).restrict _

theorem core3 (hs : Weak e) (hr : CleanRun e e' ids atts slots L A B I g0 g1 g2 g3 bs ss is an) :
    Core e.doc.version.is38 g3 := by rw [hr.hg3]; exact (hs.core2 hr).restrict _

theorem mem_L (hs : Weak e) (hr : CleanStart e ids atts slots L g0 g1) {t : NType} {n : Str} (h : graphId t n ∈ L) :
    t = .slot ∧ Bare e.data atts n := by
  rw [hr.hL] at h
  have hg0 : g0 = restrict e.graph (namedIds F slots atts) := hr.hg0
  have c0 := hs.core0 hr
  obtain ⟨nd, hn, ht⟩ : ∃ nd, getNode g0 (graphId t n) = some nd ∧ nd.ntype = .slot := by
    cases h with | mk hn ht _ => exact ⟨_, hn, ht⟩
  have := c0.typed' hn
  rw [ht] at this
  subst this
  have hnode : HasNode e.graph (graphId .slot n) ∧ graphId .slot n ∉ namedIds F slots atts := by
    rw [← hasNode_restrict, ← hg0]; exact ⟨nd, hn⟩
  refine ⟨rfl, ?_⟩
  intro k x hx
  apply Classical.byContradiction
  intro hk
  have he := hs.edge_of n k x hx
  have he0 : Edge g0 (graphId .slot n) (graphId .attachment k) := by
    rw [hg0, edge_restrict]
    refine ⟨he, hnode.2, ?_⟩
    rw [mem_namedIds]
    rintro (⟨h, _⟩ | ⟨_, h⟩)
    · cases h
    · exact hk h
  cases h with
  | mk hn' _ hall =>
    rw [hn] at hn'; injection hn' with hn'; subst hn'
    obtain ⟨m, hm, hy⟩ := he0
    rw [hn] at hm; injection hm with hm; subst hm
    cases hall _ hy with
    | mk h1 h2 _ =>
      have := c0.typed' h1
      rw [h2] at this; cases this

/-- a slot with an attachment that is not removed stays in the graph -/
theorem slot_kept (hs : Weak e) (hr : CleanStart e ids atts slots L g0 g1) {slot k : Str} {x : Att F}
    (h : e.data.HasAtt slot k x) (h1 : slot ∉ ids) (h2 : k ∉ atts) : graphId .slot slot ∉ namedIds F slots atts ++ L := by
  rw [List.mem_append, mem_namedIds]
  rintro ((⟨_, h⟩ | ⟨h, _⟩) | hL)
  · refine h1 ?_
    rw [hr.hids, mem_setList, List.mem_append]; exact .inl h
  · cases h
  · exact h2 ((hs.mem_L hr hL).2 k x h)

/-- a slot left in the graph has a bone -/
theorem survivor (hs : Weak e) (hr : CleanStart e ids atts slots L g0 g1) {n : Str} (h : HasNode g1 (graphId .slot n)) :
    ∃ s ∈ e.data.slots, s.name = n ∧ s.bone ≠ none := by
  have c0 := hs.core0 hr
  have h' := h
  rw [hr.hg1, hasNode_restrict] at h'
  obtain ⟨⟨nd, hn⟩, hL⟩ := h'
  rw [hr.hL] at hL
  have : ∃ y, y ∈ nd.children := by
    apply Classical.byContradiction
    intro hno
    exact hL (.mk hn (c0.typed' hn) (fun y hy => absurd ⟨y, hy⟩ hno))
  obtain ⟨y, hy⟩ := this
  have he : Edge g0 (graphId .slot n) y := ⟨nd, hn, hy⟩
  rw [hr.hg0, edge_restrict] at he
  exact hs.edge_bone n y he.1

/-- the slot nodes that survive, with the slot read back from them -/
theorem slotNode (hs : Weak e) (hr : CleanStart e ids atts slots L g0 g1) {p : Str × Int × JVal F} (hp : p ∈ nodesOf g1 .slot) :
    ∃ y : Slot F, p.1 = graphId .slot y.name ∧ p.2.2 = y.toJson e.doc.version.is38 ∧ y.bone ≠ none ∧ Slot.init p.2.2 = .ok y := by
  have hp' := hp
  rw [hr.nodes1, nodesOf_restrict, List.mem_filter] at hp'
  obtain ⟨x, hx, e1, y, e2, e3⟩ := hs.slots.left hp'.1
  have hnode : HasNode g1 (graphId .slot x.name) := by
    obtain ⟨i, d⟩ := p
    obtain ⟨nd, hn, _, _⟩ := (mem_nodesOf (hs.core1 hr).wf .slot i d).1 hp
    simp only at e1
    exact ⟨nd, e1 ▸ hn⟩
  obtain ⟨s, hm, hn, hb⟩ := hs.survivor hr hnode
  have : s = x := nodup_map_inj hs.slotNames hm hx hn
  subst this
  have hn : y.name = s.name ∧ y.bone = s.bone := by
    rcases e3 with rfl | rfl <;> exact ⟨rfl, rfl⟩
  have hb' : y.bone ≠ none := by rw [hn.2]; exact hb
  exact ⟨y, by rw [e1, hn.1], e2, hb', by rw [e2]; exact Slot.init_toJson _ _ hb'⟩

theorem ss_rel (hs : Weak e) (hr : CleanRun e e' ids atts slots L A B I g0 g1 g2 g3 bs ss is an) :
    All₂ (fun p (y : Slot F) => p.1 = graphId .slot y.name ∧ p.2.2 = y.toJson e.doc.version.is38 ∧ y.bone ≠ none) (nodesOf g1 .slot) ss := by
  have h1 := (mapE_all₂ _ _ _).1 hr.hss
  rw [All₂.map_left] at h1
  refine h1.mono' ?_
  intro p y hp _ hy
  obtain ⟨y', e1, e2, e3, e4⟩ := hs.slotNode hr.toCleanStart hp
  rw [e4] at hy; injection hy with hy; subst hy
  exact ⟨e1, e2, e3⟩

/-- the slots after cleaning -/
theorem result_slots (hs : Weak e) (hr : CleanRun e e' ids atts slots L A B I g0 g1 g2 g3 bs ss is an) :
    All₂ (fun p (x : Slot F) => p.1 = graphId .slot x.name ∧ (∃ y : Slot F, p.2.2 = y.toJson e.doc.version.is38 ∧
      (x = y ∨ x = { y with attachment := none })) ∧ x.bone ≠ none) (nodesOf g1 .slot) e'.data.slots := by
  have h1 : e'.data.slots = (attsInSlots atts { e.data with slots := ss }).slots := by rw [hr.data]; rfl
  rw [h1]
  show All₂ _ _ (ss.map _)
  rw [All₂.map_right]
  refine (hs.ss_rel hr).mono ?_
  rintro p y _ ⟨e1, e2, e3⟩
  split
  · split
    · exact ⟨e1, ⟨y, e2, .inr rfl⟩, e3⟩
    · exact ⟨e1, ⟨y, e2, .inl rfl⟩, e3⟩
  · exact ⟨e1, ⟨y, e2, .inl rfl⟩, e3⟩

theorem result_skins (hs : Weak e) (hr : CleanRun e e' ids atts slots L A B I g0 g1 g2 g3 bs ss is an) :
    e'.data.skins = e.data.skins.map (cutSkin ids atts) := by
  have h1 : e'.data.skins = (attsInSkins atts (slotsInSkins ids { e.data with skins := e.data.skins.map (·.setDefaults e.doc.version.is38) })).skins := by
    rw [hr.data]; rfl
  rw [h1, (AnimData.fixed_iff.1 hs.dflt).2.1]
  simp only [attsInSkins, slotsInSkins, List.map_map]
  rfl

theorem hasAtt (hs : Weak e) (hr : CleanRun e e' ids atts slots L A B I g0 g1 g2 g3 bs ss is an) (slot key : Str) (x : Att F) :
    e'.data.HasAtt slot key x ↔ e.data.HasAtt slot key x ∧ slot ∉ ids ∧ key ∉ atts := by
  unfold AnimData.HasAtt
  rw [hs.result_skins hr]
  constructor
  · rintro ⟨s, hm, h⟩
    obtain ⟨s0, hm0, rfl⟩ := List.mem_map.1 hm
    obtain ⟨h, h1, h2⟩ := mem_cutSkin.1 h
    exact ⟨⟨s0, hm0, h⟩, h1, h2⟩
  · rintro ⟨⟨s, hm, h⟩, h1, h2⟩
    exact ⟨_, List.mem_map_of_mem hm, mem_cutSkin.2 ⟨h, h1, h2⟩⟩

theorem result_an (hs : Weak e) (hr : CleanRun e e' ids atts slots L A B I g0 g1 g2 g3 bs ss is an) :
    All₂ (fun p q => q.1 = p.1 ∧ Anim.removeDrawOrder ids e.data.slots ((p.2.removeSlots ids).removeDeformSlots ids) = (.ok (), q.2))
      e.data.animations an := by
  have h := (mapMutD_ok _ _ _).1 hr.han
  rw [(AnimData.fixed_iff.1 hs.dflt).2.2.2.2.2.2] at h
  unfold dmap at h
  rw [All₂.map_left] at h
  exact h

theorem result_animations (hs : Weak e) (hr : CleanRun e e' ids atts slots L A B I g0 g1 g2 g3 bs ss is an) :
    e'.data.animations = (e.data.skins.map (·.name)).foldl (fun an n => dmap (Anim.removeDeformAtts atts n) an) an := by
  have h1 : e'.data.animations = (slotsInSkins ids { e.data with skins := e.data.skins.map (·.setDefaults e.doc.version.is38) }).skins.foldl
      (fun an s => dmap (Anim.removeDeformAtts atts s.name) an) an := by
    rw [hr.data]; rfl
  rw [h1, (AnimData.fixed_iff.1 hs.dflt).2.1]
  simp only [slotsInSkins, List.foldl_map]

theorem typeA (hs : Weak e) (hr : CleanRun e e' ids atts slots L A B I g0 g1 g2 g3 bs ss is an) {t : NType} {n : Str}
    (h : graphId t n ∈ A) : t = .attachment := by
  cases (hr.hA _).1 h with | mk hn ht _ => exact ((hs.core1 hr.toCleanStart).typed' hn).symm.trans ht

theorem typeB (hs : Weak e) (hr : CleanRun e e' ids atts slots L A B I g0 g1 g2 g3 bs ss is an) {t : NType} {n : Str}
    (h : graphId t n ∈ B) : t = .attachment := by
  cases (hr.hB _).1 h with | mk hn ht _ => exact ((hs.core2 hr).typed' hn).symm.trans ht

theorem typeI (hs : Weak e) (hr : CleanRun e e' ids atts slots L A B I g0 g1 g2 g3 bs ss is an) {t : NType} {n : Str}
    (h : graphId t n ∈ I) : t = .image := by
  cases (hr.hI _).1 h with | mk hn ht _ => exact ((hs.core3 hr).typed' hn).symm.trans ht

theorem att_kept (hs : Weak e) (hr : CleanStart e ids atts slots L g0 g1) {k : Str} (h2 : k ∉ atts) :
    graphId .attachment k ∉ namedIds F slots atts ++ L := by
  rw [List.mem_append, mem_namedIds]
  rintro ((⟨h, _⟩ | ⟨_, h⟩) | h)
  · cases h
  · exact h2 h
  · cases (hs.mem_L hr h).1

theorem edge1 (hs : Weak e) (hr : CleanStart e ids atts slots L g0 g1) {slot k : Str} {x : Att F}
    (h : e.data.HasAtt slot k x) (h1 : slot ∉ ids) (h2 : k ∉ atts) : Edge g1 (graphId .slot slot) (graphId .attachment k) := by
  rw [hr.nodes1, edge_restrict]
  exact ⟨hs.edge_of _ _ _ h, hs.slot_kept hr h h1 h2, hs.att_kept hr h2⟩

theorem edgeImg (hs : Weak e) (hr : CleanStart e ids atts slots L g0 g1) {slot k i : Str} {x : Att F}
    (h : e.data.HasAtt slot k x) (h2 : k ∉ atts) (hi : ImageName k x i) : Edge g1 (graphId .attachment k) (graphId .image i) := by
  rw [hr.nodes1, edge_restrict]
  refine ⟨hs.img_of _ _ _ _ h hi, hs.att_kept hr h2, ?_⟩
  rw [List.mem_append, mem_namedIds]
  rintro ((⟨h, _⟩ | ⟨h, _⟩) | h)
  · cases h
  · cases h
  · cases (hs.mem_L hr h).1

theorem notA (hs : Weak e) (hr : CleanRun e e' ids atts slots L A B I g0 g1 g2 g3 bs ss is an) {slot k : Str} {x : Att F}
    (h : e.data.HasAtt slot k x) (h1 : slot ∉ ids) (h2 : k ∉ atts) : graphId .attachment k ∉ A := by
  have c1 := hs.core1 hr.toCleanStart
  have he := hs.edge1 hr.toCleanStart h h1 h2
  rw [hr.hA, doomed_edge c1 (wf_edge_nodes c1.wf he).2]
  · intro hno; exact hno _ he
  · intro p hp
    rw [hr.nodes1, edge_restrict] at hp
    obtain ⟨m, rfl⟩ := hs.att_parent _ _ hp.1
    exact ⟨.slot, m, by decide, rfl⟩

theorem edge2 (hs : Weak e) (hr : CleanRun e e' ids atts slots L A B I g0 g1 g2 g3 bs ss is an) {slot k : Str} {x : Att F}
    (h : e.data.HasAtt slot k x) (h1 : slot ∉ ids) (h2 : k ∉ atts) : Edge g2 (graphId .slot slot) (graphId .attachment k) := by
  rw [hr.hg2, edge_restrict]
  exact ⟨hs.edge1 hr.toCleanStart h h1 h2, fun h => (by cases hs.typeA hr h), hs.notA hr h h1 h2⟩

theorem edgeImg2 (hs : Weak e) (hr : CleanRun e e' ids atts slots L A B I g0 g1 g2 g3 bs ss is an) {slot k i : Str} {x : Att F}
    (h : e.data.HasAtt slot k x) (h1 : slot ∉ ids) (h2 : k ∉ atts) (hi : ImageName k x i) :
    Edge g2 (graphId .attachment k) (graphId .image i) := by
  rw [hr.hg2, edge_restrict]
  exact ⟨hs.edgeImg hr.toCleanStart h h2 hi, hs.notA hr h h1 h2, fun h => (by cases hs.typeA hr h)⟩

theorem notB (hs : Weak e) (hr : CleanRun e e' ids atts slots L A B I g0 g1 g2 g3 bs ss is an) {slot k : Str} {x : Att F}
    (h : e.data.HasAtt slot k x) (h1 : slot ∉ ids) (h2 : k ∉ atts) : graphId .attachment k ∉ B := by
  obtain ⟨i, hi⟩ := ImageName.exists k x
  have he := hs.edgeImg2 hr h h1 h2 hi
  rw [hr.hB, doomed_edge_down (hs.core2 hr) (wf_edge_nodes (hs.core2 hr).wf he).1]
  · intro hno; exact hno _ he
  · intro p hp
    rw [hr.hg2, edge_restrict, hr.nodes1, edge_restrict] at hp
    obtain ⟨m, rfl⟩ := hs.att_child _ _ hp.1.1
    exact ⟨.image, m, by decide, rfl⟩

theorem edgeImg3 (hs : Weak e) (hr : CleanRun e e' ids atts slots L A B I g0 g1 g2 g3 bs ss is an) {slot k i : Str} {x : Att F}
    (h : e.data.HasAtt slot k x) (h1 : slot ∉ ids) (h2 : k ∉ atts) (hi : ImageName k x i) :
    Edge g3 (graphId .attachment k) (graphId .image i) := by
  rw [hr.hg3, edge_restrict]
  exact ⟨hs.edgeImg2 hr h h1 h2 hi, hs.notB hr h h1 h2, fun h => (by cases hs.typeB hr h)⟩

theorem notI (hs : Weak e) (hr : CleanRun e e' ids atts slots L A B I g0 g1 g2 g3 bs ss is an) {slot k i : Str} {x : Att F}
    (h : e.data.HasAtt slot k x) (h1 : slot ∉ ids) (h2 : k ∉ atts) (hi : ImageName k x i) : graphId .image i ∉ I := by
  have he := hs.edgeImg3 hr h h1 h2 hi
  rw [hr.hI, doomed_edge (hs.core3 hr) (wf_edge_nodes (hs.core3 hr).wf he).2]
  · intro hno; exact hno _ he
  · intro p hp
    rw [hr.hg3, edge_restrict, hr.hg2, edge_restrict, hr.nodes1, edge_restrict] at hp
    obtain ⟨m, rfl⟩ := hs.img_parent _ _ hp.1.1.1
    exact ⟨.attachment, m, by decide, rfl⟩

theorem survive (hs : Weak e) (hr : CleanRun e e' ids atts slots L A B I g0 g1 g2 g3 bs ss is an) {slot k : Str} {x : Att F}
    (h : e.data.HasAtt slot k x) (h1 : slot ∉ ids) (h2 : k ∉ atts) : Edge e'.graph (graphId .slot slot) (graphId .attachment k) := by
  rw [hr.graph, edge_restrict, hr.hg3, edge_restrict]
  exact ⟨⟨hs.edge2 hr h h1 h2, fun h => (by cases hs.typeB hr h), hs.notB hr h h1 h2⟩, fun h => (by cases hs.typeI hr h),
    fun h => (by cases hs.typeI hr h)⟩

theorem an_fixed (hs : Weak e) (hr : CleanRun e e' ids atts slots L A B I g0 g1 g2 g3 bs ss is an) :
    dmap (·.setDefaults e.doc.version.is38) e'.data.animations = e'.data.animations := by
  rw [hs.result_animations hr]
  have h0 : dmap (·.setDefaults e.doc.version.is38) an = an := by
    rw [dmap_fixed_iff]
    intro q hq
    obtain ⟨p, hp, _, h⟩ := (hs.result_an hr).right hq
    refine Anim.fixed_removeDrawOrder (Anim.fixed_removeSlots ids ?_) h
    exact dmap_fixed_iff.1 (AnimData.fixed_iff.1 hs.dflt).2.2.2.2.2.2 p hp
  generalize e.data.skins.map (·.name) = l
  clear hr
  induction l generalizing an with
  | nil => exact h0
  | cons n l ih =>
    rw [List.foldl_cons]
    exact ih (dmap_fixed_dmap h0 (fun x hx => Anim.fixed_removeDeformAtts atts n hx))

theorem result_anims (hs : Weak e) (hr : CleanRun e e' ids atts slots L A B I g0 g1 g2 g3 bs ss is an) : e'.data.DistinctAnims := by
  have h0 : (∀ q ∈ an, (Dict.keys q.2.slots).Nodup ∧ (Dict.keys q.2.deform).Nodup) ∧ (Dict.keys an).Nodup := by
    have h := hs.result_an hr
    constructor
    · intro q hq
      obtain ⟨p, hp, _, h⟩ := h.right hq
      unfold Anim.removeDrawOrder at h
      simp only [Prod.mk.injEq] at h
      obtain ⟨_, h⟩ := h
      rw [← h]
      refine ⟨(hs.anims.slots p hp).sublist (List.filter_sublist.map _), ?_⟩
      show (Dict.keys (dmap _ _)).Nodup
      rw [keys_dmap]
      exact hs.anims.deform p hp
    · have : Dict.keys an = Dict.keys e.data.animations := by
        unfold Dict.keys
        exact (h.map_eq (f := fun p => p.1) (g := fun p => p.1) (fun _ _ h => h.1.symm)).symm
      rw [this]; exact hs.anims.names
  have key : ∀ (l : List Str) (an : Dict (Anim F)), ((∀ q ∈ an, (Dict.keys q.2.slots).Nodup ∧ (Dict.keys q.2.deform).Nodup) ∧ (Dict.keys an).Nodup) →
      ((∀ q ∈ l.foldl (fun an n => dmap (Anim.removeDeformAtts atts n) an) an, (Dict.keys q.2.slots).Nodup ∧ (Dict.keys q.2.deform).Nodup) ∧
        (Dict.keys (l.foldl (fun an n => dmap (Anim.removeDeformAtts atts n) an) an)).Nodup) := by
    intro l
    induction l with
    | nil => intro an h; exact h
    | cons n l ih =>
      intro an h
      rw [List.foldl_cons]
      apply ih
      rw [keys_dmap]
      refine ⟨?_, h.2⟩
      rintro ⟨k, v⟩ hq
      obtain ⟨x, hx, rfl⟩ := (mem_dmap _ _ _ _).1 hq
      have := Anim.keys_removeDeformAtts atts n x
      simp only [this.1, this.2]
      exact h.1 _ hx
  have := key (e.data.skins.map (·.name)) an h0
  rw [← hs.result_animations hr] at this
  exact ⟨fun p hp => (this.1 p hp).1, fun p hp => (this.1 p hp).2, this.2⟩

theorem clean (hs : Weak e) (hec : ECore e') (hr : CleanRun e e' ids atts slots L A B I g0 g1 g2 g3 bs ss is an) : Weak e' := by
  have hsub : ∀ {x y}, Edge e'.graph x y → Edge e.graph x y := by
    intro x y h; rw [hr.graph_eq, edge_restrict] at h; exact h.1
  have c1 := hs.core1 hr.toCleanStart
  have hnodes : nodesOf e'.graph .slot = nodesOf g1 .slot := by
    rw [hr.graph, nodesOf_restrict_other (hs.core3 hr).wf, hr.hg3, nodesOf_restrict_other (hs.core2 hr).wf, hr.hg2,
      nodesOf_restrict_other c1.wf]
    · intro x hx nd hn ht
      cases (hr.hA x).1 hx with | mk hn' ht' _ => rw [hn] at hn'; injection hn' with hn'; subst hn'; rw [ht] at ht'; cases ht'
    · intro x hx nd hn ht
      cases (hr.hB x).1 hx with | mk hn' ht' _ => rw [hn] at hn'; injection hn' with hn'; subst hn'; rw [ht] at ht'; cases ht'
    · intro x hx nd hn ht
      cases (hr.hI x).1 hx with | mk hn' ht' _ => rw [hn] at hn'; injection hn' with hn'; subst hn'; rw [ht] at ht'; cases ht'
  obtain ⟨h1, h2, h3, h4, h5, h6, h7⟩ := AnimData.fixed_iff.1 hs.dflt
  refine ⟨hec, ?_, ?_, ?_, ?_, ?_, ?_, ?_, ?_, ?_, ?_, hs.result_anims hr⟩
  · rw [hr.version, AnimData.fixed_iff]
    refine ⟨?_, ?_, ?_, ?_, ?_, ?_, hs.an_fixed hr⟩
    · rw [hr.result_bones.1]; exact map_idem (Bone.setDefaults_idem _) _
    · rw [hs.result_skins hr, map_fixed_iff]
      intro s hm
      obtain ⟨s0, hm0, rfl⟩ := List.mem_map.1 hm
      rw [map_fixed_iff] at h2
      have := Skin.fixed_iff.1 (h2 s0 hm0)
      rw [Skin.fixed_iff]
      rintro ⟨slot, d⟩ hp ⟨k, x⟩ hq
      obtain ⟨⟨d0, hd0, hx0⟩, _⟩ := mem_cutSkin.1 ⟨d, hp, hq⟩
      exact this _ hd0 _ hx0
    · have : e'.data.events = dmap (eventsCls.setDefaults e.doc.version.is38) e.data.events := by rw [hr.data]; rfl
      rw [this, h3]; exact h3
    · rw [hr.result_bones.2]; exact map_idem (Cls.setDefaults_idem _ _) _
    · have : e'.data.transform = e.data.transform.map (transformCls.setDefaults e.doc.version.is38) := by rw [hr.data]; rfl
      rw [this, h5]; exact h5
    · have : e'.data.path = e.data.path.map (pathCls.setDefaults e.doc.version.is38) := by rw [hr.data]; rfl
      rw [this, h6]; exact h6
  · rw [hr.version, hnodes]
    exact (hs.result_slots hr).mono (fun _ _ _ h => ⟨h.1, h.2.1⟩)
  · intro slot k x h
    obtain ⟨h, h1, h2⟩ := (hs.hasAtt hr _ _ _).1 h
    exact hs.survive hr h h1 h2
  · intro n y h
    have hn : HasNode e'.graph (graphId .slot n) := (wf_edge_nodes hec.core.wf h).1
    obtain ⟨nd, hn⟩ := hn
    have hp := (mem_nodesOf hec.core.wf .slot _ nd.data).2 ⟨nd, hn, hec.core.typed' hn, rfl⟩
    rw [hnodes] at hp
    obtain ⟨x, hx, e1, _, e3⟩ := (hs.result_slots hr).left hp
    exact ⟨x, hx, (graphId_inj e1).2.symm, e3⟩
  · intro p k h; exact hs.att_parent _ _ (hsub h)
  · intro k c h; exact hs.att_child _ _ (hsub h)
  · intro p i h; exact hs.img_parent _ _ (hsub h)
  · intro slot k x i h hi
    obtain ⟨h, h1, h2⟩ := (hs.hasAtt hr _ _ _).1 h
    rw [hr.graph, edge_restrict]
    exact ⟨hs.edgeImg3 hr h h1 h2 hi, fun h => (by cases hs.typeI hr h), hs.notI hr h h1 h2 hi⟩
  · intro s hm
    rw [hs.result_skins hr] at hm
    obtain ⟨s0, hm0, rfl⟩ := List.mem_map.1 hm
    show (Dict.keys (dmap _ _)).Nodup
    rw [keys_dmap]
    exact (hs.distinct s0 hm0).sublist (List.filter_sublist.map _)
  · intro slot k x h
    exact hs.sane _ _ _ ((hs.hasAtt hr _ _ _).1 h).1

end Weak

theorem weak_clean {r : List Str × List Str} (hs : Weak e) (h : clean e = (.ok r, e')) : Weak e' := by
  obtain ⟨slots, L, A, B, I, g0, g1, g2, g3, bs, ss, is, an, hr⟩ := clean_run hs.core (ids := r.1) (atts := r.2) h
  have := (clean_any hs.ecore).choose_spec.2.2.1
  rw [h] at this
  exact hs.clean this hr

/-! ### clean_animation fails only where the data is wrong -/

theorem Weak.cleanGraph_total (hs : Weak e) (hu : AnimData.unused e.data = .ok (slots, atts)) :
    ∃ ids L g0 g1, cleanGraph slots atts e.graph = (.ok ids, g1) ∧ CleanStart e ids atts slots L g0 g1 := by
  have h1 := removeNamed_ok (F := F) .slot (setList F slots) hs.core.wf (nodup_map_graphId _ (nodup_setList _))
    (fun x hx => (hs.hasSlot x).2 (unused_slots hu x ((mem_setList _ _).1 hx)))
  have h2 := removeNamed_ok (F := F) .attachment (setList F atts)
    (wf_restrict hs.core.wf ((setList F slots).map (graphId .slot))) (nodup_map_graphId _ (nodup_setList _)) (by
      intro k hk
      obtain ⟨slot, x, hx⟩ := unused_atts hu k ((mem_setList _ _).1 hk)
      rw [hasNode_restrict]
      refine ⟨(wf_edge_nodes hs.core.wf (hs.edge_of slot k x hx)).2, ?_⟩
      intro hm
      obtain ⟨m, _, e1⟩ := List.mem_map.1 hm
      have := (graphId_inj e1).1
      cases this)
  rw [restrict_restrict] at h2
  obtain ⟨L, hL1, _, hL2⟩ := removeLeafs_spec (baseId .slot) NType.slot
    (g := restrict e.graph ((setList F slots).map (graphId .slot) ++ (setList F atts).map (graphId .attachment))) (wf_restrict hs.core.wf _)
  refine ⟨_, L, _, _, ?_, hu, rfl, hL2, rfl, rfl⟩
  unfold cleanGraph
  rw [h1]
  simp only [h2, hL1]

theorem Weak.readBack_total (hs : Weak e) (hr : CleanStart e ids atts slots L g0 g1) : ∃ e1, readBack { e with graph := g1 } = (.ok (), e1) ∧ e1.graph = g1 ∧
    e1.data.animations = dmap (·.setDefaults e.doc.version.is38) e.data.animations := by
  have c1 := hs.core1 hr
  obtain ⟨bs, hb⟩ : ∃ bs, mapE Bone.init ((nodesOf g1 .bone).map (·.2.2)) = .ok bs := by
    refine mapE_exists ?_
    intro j hj
    obtain ⟨p, hp, rfl⟩ := List.mem_map.1 hj
    obtain ⟨x, hx, e1⟩ := c1.bones p hp
    obtain ⟨y, hy, _⟩ := Bone.rt e.doc.version.is38 x hx
    exact ⟨y, by rw [e1]; exact hy⟩
  obtain ⟨is, hi⟩ : ∃ is, mapE ikCls.init ((nodesOf g1 .ik).map (·.2.2)) = .ok is := by
    refine mapE_exists ?_
    intro j hj
    obtain ⟨p, hp, rfl⟩ := List.mem_map.1 hj
    obtain ⟨x, hx, e1⟩ := c1.iks p hp
    obtain ⟨y, hy, _⟩ := Cls.rt (ikCls (F := F)) (by simp [leafClasses]) rfl e.doc.version.is38 x hx
    exact ⟨y, by rw [e1]; exact hy⟩
  obtain ⟨ss, hss⟩ : ∃ ss, mapE Slot.init ((nodesOf g1 .slot).map (·.2.2)) = .ok ss := by
    refine mapE_exists ?_
    intro j hj
    obtain ⟨p, hp, rfl⟩ := List.mem_map.1 hj
    obtain ⟨s, _, _, _, e1⟩ := hs.slotNode hr hp
    exact ⟨s, e1⟩
  have hx : readBack { e with graph := g1 } = (.ok (), { e with graph := g1 }.withData
      (AnimData.setDefaults e.doc.version.is38 { e.data with bones := bs, slots := ss, ik := is })) := by
    unfold readBack
    have hj : SpineNodes.toJsonData g1 = _ := c1.toJsonData
    simp only [hj, hb, hss, hi]
    rfl
  exact ⟨_, hx, rfl, rfl⟩

theorem Weak.clean_total (hs : Weak e) (hu : AnimData.unused e.data = .ok (slots, atts)) (hd : ¬ BadDraw e.data) :
    ∃ r e', Editor.clean e = (.ok r, e') := by
  obtain ⟨ids, L, g0, g1, hg, hr⟩ := hs.cleanGraph_total hu
  obtain ⟨e1, hb, hg1, han⟩ := hs.readBack_total hr
  rw [(AnimData.fixed_iff.1 hs.dflt).2.2.2.2.2.2] at han
  obtain ⟨a, ha⟩ : ∃ a, removeSlots ids e.data.slots e1.data = (.ok (), a) := by
    unfold removeSlots drawOrderRefs
    obtain ⟨m, hm⟩ : ∃ m, mapMutD (fun _ x => Anim.removeDrawOrder ids e.data.slots x) (slotsInAnims ids (slotsInSkins ids e1.data)).animations = (.ok (), m) := by
      refine mapMutD_exists ?_
      rintro ⟨n, x⟩ hp
      obtain ⟨y, hy, rfl⟩ := (mem_dmap (fun x : Anim F => (x.removeSlots ids).removeDeformSlots ids) e1.data.animations n x).1 hp
      refine drawOrder_total ids e.data.slots hs.slotNames ?_
      intro t ht k hk _
      apply Classical.byContradiction
      intro hno
      refine hd ⟨(n, y), ?_, t, ht, k, hk, fun s hs e => hno ⟨s, hs, e⟩⟩
      have hy' : (n, y) ∈ e1.data.animations := hy
      rw [han] at hy'; exact hy'
    rw [hm]
    exact ⟨_, rfl⟩
  obtain ⟨imgs, g2, hd2⟩ := detach_total (F := F) (g := e1.graph) (b := e.doc.version.is38) (by rw [hg1]; exact hs.core1 hr)
  unfold Editor.clean
  simp only [hu, hg, hb, ha]
  have : (e1.withData (removeAttachments atts a)).graph = e1.graph := rfl
  rw [this, hd2]
  exact ⟨_, _, rfl⟩

/-- cleaning a document without bad drawOrder offsets either succeeds or changes nothing -/
theorem Weak.clean_cases (hs : Weak e) (hd : ¬ BadDraw e.data) : (∃ r e', Editor.clean e = (.ok r, e')) ∨
    ((∃ x, AnimData.unused e.data = .error x) ∧ (Editor.clean e).2 = e) := by
  cases hu : AnimData.unused e.data with
  | error x =>
    refine .inr ⟨⟨x, rfl⟩, ?_⟩
    unfold Editor.clean
    simp only [hu]
  | ok r => exact .inl (hs.clean_total (slots := r.1) (atts := r.2) hu hd)

theorem weak_clean_any (hs : Weak e) (h : (∃ r, (clean e).1 = .ok r) ∨ ¬ BadDraw e.data) : Weak (clean e).2 := by
  rcases h with ⟨r, h⟩ | h
  · exact weak_clean (r := r) hs (Prod.ext h rfl)
  · rcases hs.clean_cases h with ⟨r, e', h⟩ | ⟨_, h⟩
    · rw [h]; exact weak_clean hs h
    · rw [h]; exact hs

theorem weak_cleanUnless {safe : Bool} (hs : Weak e) (h : (∃ r, (cleanUnless safe e).1 = .ok r) ∨ safe = true ∨ ¬ BadDraw e.data) :
    Weak (cleanUnless safe e).2 := by
  unfold cleanUnless at h ⊢
  split
  · exact hs
  · rename_i hsafe
    rw [if_neg hsafe] at h
    exact weak_clean_any hs (h.imp id (fun h => h.resolve_left hsafe))

/-! ### The other calls -/

theorem weak_scale (sx sy : Num F) (hs : Weak e) : Weak (scale sx sy e).2 := by
  have hfix : (scale sx sy e).2.data.bones.map (·.setDefaults e.doc.version.is38) = (scale sx sy e).2.data.bones := by
    rw [map_fixed_iff]
    have h0 := map_fixed_iff.1 (AnimData.fixed_iff.1 hs.dflt).1
    have h1 := mapMut_good (fun b => if noInherit b then b.scale sx sy else (.ok (), b)) (G := fun b : Bone F => b.setDefaults e.doc.version.is38 = b)
      (by intro b hb; split
          · exact Bone.fixed_scale sx sy hb
          · exact hb) e.data.bones h0
    unfold scale
    split
    · rename_i x bs hbs; rw [hbs] at h1; exact h1
    · rename_i x bs hbs; rw [hbs] at h1
      exact onFirst_all (P := fun b : Bone F => b.setDefaults e.doc.version.is38 = b) _ _ (fun b hb => Bone.fixed_scale sx sy hb) bs h1
  obtain ⟨hc, _, _⟩ := scale_any sx sy hs.ecore
  rw [scale_frame] at hc ⊢
  generalize (scale sx sy e).2.data.bones = bs at hc hfix ⊢
  refine ⟨hc, ?_, hs.slots, hs.edge_of, hs.edge_bone, hs.att_parent, hs.att_child, hs.img_parent, hs.img_of,
    hs.distinct, hs.sane, ⟨hs.anims.slots, hs.anims.deform, hs.anims.names⟩⟩
  have h0 := AnimData.fixed_iff.1 hs.dflt
  exact AnimData.fixed_iff.2 ⟨hfix, h0.2⟩

theorem weak_filterAnims (hs : Weak e) (p : Str × Anim F → Bool) : Weak (e.withData { e.data with animations := e.data.animations.filter p }) := by
  refine ⟨⟨hs.ecore.core, hs.ecore.bones, hs.ecore.iks⟩, ?_, hs.slots, hs.edge_of, hs.edge_bone, hs.att_parent, hs.att_child, hs.img_parent, hs.img_of,
    hs.distinct, hs.sane, ⟨?_, ?_, ?_⟩⟩
  · have h0 := AnimData.fixed_iff.1 hs.dflt
    obtain ⟨h1, h2, h3, h4, h5, h6, h7⟩ := h0
    exact AnimData.fixed_iff.2 ⟨h1, h2, h3, h4, h5, h6, dmap_fixed_filter h7 p⟩
  · intro q hq; exact hs.anims.slots q (List.mem_filter.1 hq).1
  · intro q hq; exact hs.anims.deform q (List.mem_filter.1 hq).1
  · exact hs.anims.names.sublist (List.filter_sublist.map _)

theorem badDraw_filter {p : Str × Anim F → Bool} {a : AnimData F} (h : BadDraw { a with animations := a.animations.filter p }) : BadDraw a := by
  obtain ⟨q, hq, h⟩ := h
  exact ⟨q, (List.mem_filter.1 hq).1, h⟩

theorem weak_eraseAnims {arg : NamesArg} {strict safe : Bool} (hs : Weak e)
    (h : (∃ r, (eraseAnims arg strict safe e).1 = .ok r) ∨ safe = true ∨ ¬ BadDraw e.data) : Weak (eraseAnims arg strict safe e).2 := by
  unfold eraseAnims at h ⊢
  split
  · exact hs
  · rename_i names
    simp only at h ⊢
    rw [eraseRaw_fst] at h ⊢
    have hw := weak_filterAnims hs (fun p => decide (p.1 ∉ names))
    have hb : BadDraw { e.data with animations := e.data.animations.filter (fun p => decide (p.1 ∉ names)) } → BadDraw e.data := badDraw_filter
    generalize hE : e.withData { e.data with animations := e.data.animations.filter (fun p => decide (p.1 ∉ names)) } = e1 at h hw ⊢
    have hb' : BadDraw e1.data → BadDraw e.data := by rw [← hE]; exact hb
    split
    · exact hw
    · rename_i hc
      rw [if_neg hc] at h
      have hcl : (∃ r, (cleanUnless safe e1).1 = .ok r) ∨ safe = true ∨ ¬ BadDraw e1.data → Weak (cleanUnless safe e1).2 := weak_cleanUnless hw
      generalize cleanUnless safe e1 = q at h hcl ⊢
      obtain ⟨q1, q2⟩ := q
      cases q1 with
      | error x =>
        simp only at h ⊢ hcl
        refine hcl (.inr ?_)
        rcases h with ⟨r, h⟩ | h
        · cases h
        · exact h.imp id (fun h hx => h (hb' hx))
      | ok r => exact hcl (.inl ⟨r, rfl⟩)

/-! ### erase_skins -/

end Editor

theorem all₂_same {α : Type} {R : α → α → Prop} (h : ∀ x, R x x) (l : List α) : All₂ R l l := by
  induction l with
  | nil => exact .nil
  | cons x l ih => exact .cons (h x) ih

theorem mapMut_all {α : Type} {R : α → α → Prop} (f : α → Res α Unit) (l : List α) (hf : ∀ x ∈ l, R x (f x).2) (hr : ∀ x, R x x) :
    All₂ R l (mapMut f l).2 := by
  induction l with
  | nil => exact .nil
  | cons x l ih =>
    have hx := hf x (by simp)
    have ih := ih (fun y hy => hf y (by simp [hy]))
    unfold mapMut
    split
    · rename_i h
      rw [h] at hx
      exact .cons hx (all₂_same hr l)
    · rename_i h
      rw [h] at hx
      exact .cons hx ih

theorem mapMutD_all {α : Type} {R : Str → α → α → Prop} (f : Str → α → Res α Unit) (d : Dict α) (hf : ∀ p ∈ d, R p.1 p.2 (f p.1 p.2).2)
    (hr : ∀ k x, R k x x) : All₂ (fun p p' => p'.1 = p.1 ∧ R p.1 p.2 p'.2) d (mapMutD f d).2 := by
  unfold mapMutD
  refine mapMut_all (R := fun (p p' : Str × α) => p'.1 = p.1 ∧ R p.1 p.2 p'.2) _ _ ?_ (fun p => ⟨rfl, hr _ _⟩)
  intro p hp
  exact ⟨rfl, hf p hp⟩

namespace AnimData

/-- the attachment was relinked or left as it was -/
def PartAtt (gone : Skin F) (n slot key : Str) (x x' : Att F) : Prop :=
  x' = x ∨ (linksTo n x = true ∧ ∃ d p, Dict.get? gone.attachments slot = some d ∧ Dict.get? d key = some p ∧ x' = relinked p x)

/-- a skin some attachments of which were relinked -/
def PartSkin (gone : Skin F) (n : Str) (s s' : Skin F) : Prop :=
  All₂ (fun p p' => p'.1 = p.1 ∧ All₂ (fun q q' => q'.1 = q.1 ∧ PartAtt gone n p.1 q.1 q.2 q'.2) p.2 p'.2) s.attachments s'.attachments

theorem relinkAtt_part (gone : Skin F) (n slot key : Str) (x : Att F) : PartAtt gone n slot key x (relinkAtt gone n slot key x).2 := by
  unfold relinkAtt
  split
  · rename_i hl
    split
    · exact .inl rfl
    · rename_i d hd
      split
      · exact .inl rfl
      · rename_i p hp
        exact .inr ⟨hl, d, p, hd, hp, rfl⟩
  · exact .inl rfl

theorem PartSkin.refl (gone : Skin F) (n : Str) (s : Skin F) : PartSkin gone n s s :=
  all₂_same (fun _ => ⟨rfl, all₂_same (fun _ => ⟨rfl, .inl rfl⟩) _⟩) _

theorem relinkSkin_part (gone : Skin F) (n : Str) (s : Skin F) : PartSkin gone n s (relinkSkin gone n s).2 := by
  unfold relinkSkin
  split
  · exact .refl _ _ _
  · refine mapMutD_all (R := fun slot (d d' : Dict (Att F)) => All₂ (fun (q q' : Str × Att F) => q'.1 = q.1 ∧ PartAtt gone n slot q.1 q.2 q'.2) d d') _ _ ?_
      (fun _ _ => all₂_same (fun _ => ⟨rfl, .inl rfl⟩) _)
    intro p _
    exact mapMutD_all (R := fun k x x' => PartAtt gone n p.1 k x x') _ _ (fun q _ => relinkAtt_part _ _ _ _ _) (fun _ _ => .inl rfl)

theorem PartSkin.from {gone : Skin F} {n : Str} {a : AnimData F} (hg : gone ∈ a.skins) {s s' : Skin F} (hs : s ∈ a.skins) (h : PartSkin gone n s s') {slot k : Str} {d : Dict (Att F)} {x' : Att F}
    (hd : (slot, d) ∈ s'.attachments) (hx : (k, x') ∈ d) : AttFrom n a slot k x' := by
  obtain ⟨⟨slot', d0⟩, hd0, e1, h⟩ := All₂.right h hd
  obtain ⟨⟨k', x⟩, hx0, e2, h⟩ := h.right hx
  simp only at e1 e2 h
  subst e1 e2
  refine ⟨x, ⟨s, hs, d0, hd0, hx0⟩, ?_⟩
  rcases h with h | ⟨h1, d, p, h2, h3, h4⟩
  · exact .inl h
  · exact .inr ⟨h1, _, ⟨gone, hg, _, Dict.mem_of_get? h2, Dict.mem_of_get? h3⟩, h4⟩

/-- skins relinked in part -/
theorem partly_kept (b : Bool) {a : AnimData F} {gone : Skin F} {n : Str} (hg : gone ∈ a.skins) {sk : List (Skin F)} (h : All₂ (PartSkin gone n) a.skins sk) :
    SkinKept b a { a with skins := sk } := by
  have hfrom : ∀ slot k x', AnimData.HasAtt { a with skins := sk } slot k x' → AttFrom n a slot k x' := by
    rintro slot k x' ⟨s', hs', d, hd, hx⟩
    obtain ⟨s, hs, hr⟩ := h.right hs'
    exact PartSkin.from hg hs hr hd hx
  refine ⟨rfl, rfl, rfl, ?_, ?_, ?_, ?_, ?_⟩
  · intro hd
    rw [AnimData.fixed_iff] at hd ⊢
    obtain ⟨f1, f2, f3, f4, f5, f6, f7⟩ := hd
    refine ⟨f1, ?_, f3, f4, f5, f6, f7⟩
    rw [map_fixed_iff] at f2 ⊢
    intro s' hs'
    rw [Skin.fixed_iff]
    rintro ⟨slot, d⟩ hd ⟨k, x'⟩ hx
    have fix : ∀ slot k x, a.HasAtt slot k x → x.setDefaults b = x := by
      rintro slot k x ⟨s, hs, d, hd, hx⟩
      exact Skin.fixed_iff.1 (f2 s hs) _ hd _ hx
    obtain ⟨x, g1, g2⟩ := hfrom slot k x' ⟨s', hs', d, hd, hx⟩
    rcases g2 with rfl | ⟨_, p, g2, rfl⟩
    · exact fix _ _ _ g1
    · exact relinked_fixed (fix _ _ _ g2)
  · intro slot k x' hx
    obtain ⟨x, g1, g2⟩ := hfrom slot k x' hx
    refine ⟨x, g1, ?_⟩
    rcases g2 with rfl | ⟨hl, p, g2, rfl⟩
    · exact ⟨fun _ => Iff.rfl, id⟩
    · refine ⟨fun i => relinked_image p x, fun _ => ?_⟩
      rw [linksTo_kind hl]; decide
  · intro hd s' hs'
    obtain ⟨s, hs, hr⟩ := h.right hs'
    have : Dict.keys s'.attachments = Dict.keys s.attachments := by
      unfold Dict.keys
      exact (All₂.map_eq hr (f := fun p => p.1) (g := fun p => p.1) (fun _ _ h => h.1.symm)).symm
    rw [this]; exact hd _ hs
  · intro hs slot k x' hx
    obtain ⟨x, g1, g2⟩ := hfrom slot k x' hx
    rcases g2 with rfl | ⟨_, p, g2, rfl⟩
    · exact hs _ _ _ g1
    · exact relinked_sane (hs _ _ _ g2) (hs _ _ _ g1)
  · intro hd
    exact ⟨hd.slots, hd.deform, hd.names⟩

/-- whatever the outcome -/
theorem removeSkin_any (b : Bool) (n : Str) (a : AnimData F) : SkinKept b a (removeSkin n a).2 := by
  generalize hq : removeSkin n a = q
  obtain ⟨q1, q2⟩ := q
  cases q1 with
  | ok r => exact removeSkin_kept b hq
  | error x =>
    unfold removeSkin at hq
    split at hq
    · simp only [Prod.mk.injEq] at hq; rw [← hq.2]; exact .refl b a
    · rename_i gone hg
      have hp : SkinKept b a { a with skins := (mapMut (relinkSkin gone n) a.skins).2 } :=
        partly_kept b (getSkin_mem hg).1 (mapMut_all _ _ (fun s _ => relinkSkin_part gone n s) (PartSkin.refl gone n))
      simp only at hq
      split at hq
      · simp only [Prod.mk.injEq] at hq; rw [← hq.2]; exact hp
      · split at hq
        · simp only [Prod.mk.injEq] at hq; rw [← hq.2]; exact hp
        · simp at hq

/-- the drawOrder timelines stay -/
theorem removeSkin_draw (n : Str) {a : AnimData F} (h : Editor.BadDraw (removeSkin n a).2) : Editor.BadDraw a := by
  unfold removeSkin at h
  split at h
  · exact h
  · simp only at h
    split at h
    · exact h
    · split at h
      · exact h
      · obtain ⟨⟨m, x⟩, hp, h⟩ := h
        obtain ⟨y, hy, rfl⟩ := (mem_dmap _ _ _ _).1 hp
        exact ⟨(m, y), hy, h⟩

end AnimData

namespace Editor
open AnimData
variable {e e' : Editor F}

theorem removeSkins_any (b : Bool) (names : List Str) : ∀ (a : AnimData F), SkinKept b a (removeSkins names a).2 := by
  induction names with
  | nil => intro a; exact .refl b a
  | cons n ns ih =>
    intro a
    have h1 := removeSkin_any b n a
    rw [removeSkins]
    generalize removeSkin n a = q at h1
    obtain ⟨q1, a1⟩ := q
    cases q1 with
    | error x => exact h1
    | ok r =>
      obtain ⟨i, s⟩ := r
      have h2 := ih a1
      simp only
      generalize removeSkins ns a1 = q at h2
      obtain ⟨q1, a2⟩ := q
      cases q1 with
      | error x => exact h1.trans h2
      | ok r => exact h1.trans h2

theorem removeSkins_draw (names : List Str) : ∀ {a : AnimData F}, BadDraw (removeSkins names a).2 → BadDraw a := by
  induction names with
  | nil => intro a h; exact h
  | cons n ns ih =>
    intro a h
    have h1 := removeSkin_draw n (a := a)
    rw [removeSkins] at h
    generalize removeSkin n a = q at h1 h
    obtain ⟨q1, a1⟩ := q
    cases q1 with
    | error x => exact h1 h
    | ok r =>
      obtain ⟨i, s⟩ := r
      have h2 := ih (a := a1)
      simp only at h
      generalize removeSkins ns a1 = q at h2 h
      obtain ⟨q1, a2⟩ := q
      cases q1 with
      | error x => exact h1 (h2 h)
      | ok r => exact h1 (h2 h)

/-- the data lost attachments, the graph is as before -/
theorem weak_stale {a : AnimData F} (hs : Weak e) (hk : SkinKept e.doc.version.is38 e.data a) : Weak (e.withData a) := by
  refine ⟨⟨hs.ecore.core, ?_, ?_⟩, hk.dflt hs.dflt, ?_, ?_, ?_, hs.att_parent, hs.att_child, hs.img_parent, ?_, hk.distinct hs.distinct, hk.sane hs.sane, hk.anims hs.anims⟩
  · show ∀ b ∈ a.bones, _
    rw [hk.bones]; exact hs.ecore.bones
  · show KeysOf ikCls a.ik
    rw [hk.iks]; exact hs.ecore.iks
  · show All₂ _ _ a.slots
    rw [hk.slots]; exact hs.slots
  · intro slot k x' hx
    obtain ⟨x, g1, _⟩ := hk.att slot k x' hx
    exact hs.edge_of slot k x g1
  · show ∀ n y, _ → ∃ s ∈ a.slots, _
    rw [hk.slots]; exact hs.edge_bone
  · intro slot k x' i hx hi
    obtain ⟨x, g1, g2, _⟩ := hk.att slot k x' hx
    exact hs.img_of slot k x i g1 ((g2 i).1 hi)

theorem weak_removeSkins {a : AnimData F} {g : SGraph F} (hs : Weak e) (hk : SkinKept e.doc.version.is38 e.data a)
    (hg : SpineNodes.create (e.withData a).toJson = .ok g) : Weak { e.withData a with graph := g } := by
  refine weak_fresh (e := { e.withData a with graph := g }) ?_ ?_ (hk.dflt hs.dflt) (hk.distinct hs.distinct) (hk.sane hs.sane) (hk.anims hs.anims) ?_ hg
  · show ∀ b ∈ a.bones, _
    rw [hk.bones]; exact hs.ecore.bones
  · show KeysOf ikCls a.ik
    rw [hk.iks]; exact hs.ecore.iks
  · intro slot k x' hx
    obtain ⟨x, g1, _⟩ := hk.att slot k x' hx
    show ∃ s ∈ a.slots, _
    rw [hk.slots]; exact hs.slot_bone slot k x g1

theorem weak_cleanImages (hs : Weak e) (gone : List (Option Str)) : Weak (cleanImages gone e) :=
  ⟨⟨hs.ecore.core, hs.ecore.bones, hs.ecore.iks⟩, hs.dflt, hs.slots, hs.edge_of, hs.edge_bone, hs.att_parent, hs.att_child, hs.img_parent,
    hs.img_of, hs.distinct, hs.sane, hs.anims⟩

theorem weak_eraseSkins {names : List Str} {safe : Bool} (hs : Weak e)
    (h : (∃ r, (eraseSkins names safe e).1 = .ok r) ∨ safe = true ∨ ¬ BadDraw e.data) : Weak (eraseSkins names safe e).2 := by
  have hk := removeSkins_any e.doc.version.is38 names e.data
  have hd := removeSkins_draw names (a := e.data)
  unfold eraseSkins at h ⊢
  generalize removeSkins names e.data = q at hk hd h ⊢
  obtain ⟨q1, a⟩ := q
  cases q1 with
  | error x => exact weak_stale hs hk
  | ok r =>
    obtain ⟨imgs, regions⟩ := r
    simp only at h ⊢ hk hd
    cases hg : SpineNodes.create (e.withData a).toJson with
    | error x => exact weak_stale hs hk
    | ok g =>
      rw [hg] at h
      simp only at h ⊢
      have hw := weak_removeSkins hs hk hg
      have hcl : (∃ r, (cleanUnless safe { e.withData a with graph := g }).1 = .ok r) ∨ safe = true ∨ ¬ BadDraw a → Weak (cleanUnless safe { e.withData a with graph := g }).2 :=
        weak_cleanUnless hw
      generalize cleanUnless safe { e.withData a with graph := g } = q at h hcl ⊢
      obtain ⟨q1, q2⟩ := q
      cases q1 with
      | error x =>
        simp only at h ⊢ hcl
        refine hcl (.inr ?_)
        rcases h with ⟨r, h⟩ | h
        · cases h
        · exact h.imp id (fun h hx => h (hd hx))
      | ok r => exact weak_cleanImages (hcl (.inl ⟨r, rfl⟩)) _

/-! ### Histories -/

/-- the call contains a call of `clean_animation` -/
def Op.cleans : Op F → Bool
  | .eraseSkins _ safe => !safe
  | .eraseAnims _ _ safe => !safe
  | .clean => true
  | .scale _ _ => false

/-- the editors reached from any document by any calls; a call may fail, except that a drawOrder offset naming an unknown slot must
not stop a cleaning half-way -/
inductive Called : Editor F → Prop
  | load {doc : JVal F} {e : Editor F} : doc.Proper → load doc = .ok e → Called e
  | run {e : Editor F} (o : Op F) : Called e → ((o.run e).1 = .ok () ∨ o.cleans = false ∨ ¬ BadDraw e.data) → Called (o.run e).2

theorem okOf {α : Type} {f : α → Unit} {x : Except Err α} (h : x.map f = .ok ()) : ∃ r, x = .ok r := by
  cases x with
  | error e => cases h
  | ok r => exact ⟨r, rfl⟩

theorem Called.weak (h : Called e) : Weak e := by
  induction h with
  | load h1 h2 => exact weak_load h1 h2
  | @run e o _ h ih =>
    cases o with
    | eraseSkins n s => exact weak_eraseSkins ih (h.imp okOf (fun h => h.imp (by simp [Op.cleans]) id))
    | eraseAnims arg t s => exact weak_eraseAnims ih (h.imp okOf (fun h => h.imp (by simp [Op.cleans]) id))
    | clean => exact weak_clean_any ih (h.imp okOf (fun h => h.resolve_left (by simp [Op.cleans])))
    | scale sx sy => exact weak_scale sx sy ih

theorem Ran.called (h : Ran e) : Called e := by
  induction h with
  | load h1 h2 _ => exact .load h1 h2
  | run o _ h ih =>
    have := Called.run o ih (.inl (by rw [h]))
    rw [h] at this; exact this
  | scaled sx sy _ ih => exact Called.run (.scale sx sy) ih (.inr (.inl rfl))
  | failedErase arg strict _ ih => exact Called.run (.eraseAnims arg strict true) ih (.inr (.inl rfl))

/-! ### Images in use -/

theorem Weak.image_node (hs : Weak e) {i : Str} (hi : e.data.UsesImage i) : HasNode e.graph (graphId .image i) := by
  obtain ⟨slot, k, x, h1, _, h3⟩ := hi
  exact (wf_edge_nodes hs.core.wf (hs.img_of slot k x i h1 h3)).2

theorem Weak.not_gone (hs : Weak e) {i : Str} (hi : e.data.UsesImage i) (l : List (Option Str)) :
    some i ∉ l.filter (fun i => (Graph.getNode e.graph (imageId i)).isNone) := by
  intro hm
  have := (List.mem_filter.1 hm).2
  obtain ⟨nd, hn⟩ := hs.image_node hi
  have e1 : imageId (some i) = graphId .image i := rfl
  rw [e1, hn] at this
  cases this

theorem Weak.clean_uses {safe : Bool} {r : List Str × List Str} (hs : Weak e) (h : cleanUnless safe e = (.ok r, e')) {i : Str} (hi : e'.data.UsesImage i) :
    e.data.UsesImage i := by
  unfold cleanUnless at h
  split at h
  · simp only [Prod.mk.injEq] at h; rw [h.2]; exact hi
  · obtain ⟨slots, L, A, B, I, g0, g1, g2, g3, bs, ss, is, an, hr⟩ := clean_run hs.core (ids := r.1) (atts := r.2) h
    obtain ⟨slot, k, x, h1, h2, h3⟩ := hi
    exact ⟨slot, k, x, ((hs.hasAtt hr _ _ _).1 h1).1, h2, h3⟩

end Editor
end Spine
