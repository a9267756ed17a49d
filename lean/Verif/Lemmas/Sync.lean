import Verif.Lemmas.CoreEditor
import Verif.Spec.Names
/- The invariant that ties the graph of an editor to its data, and `clean_animation` on such an editor. -/
set_option linter.unusedSectionVars false
set_option linter.unusedSimpArgs false
namespace Spine
open JVal Graph Container
variable {F : Type} [PyRt F]

theorem doomed_iff_rel_nil {b : Bool} {g : SGraph F} (hc : Core b g) {rel : Node NType (Int × JVal F) → List Str} {t : NType} {x : Str}
    {n : Node NType (Int × JVal F)} (hn : getNode g x = some n) (ht : n.ntype = t)
    (hr : ∀ y ∈ rel n, ∃ u m, u ≠ t ∧ y = graphId u m) : Doomed g rel t x ↔ rel n = [] := by
  constructor
  · intro h
    cases h with
    | mk hn' _ h =>
      rw [hn] at hn'; injection hn' with hn'; subst hn'
      cases hl : rel n with
      | nil => rfl
      | cons y l =>
        obtain ⟨u, m, hu, rfl⟩ := hr y (by simp [hl])
        cases h (graphId u m) (by simp [hl]) with
        | mk h1 h2 _ => exact absurd ((hc.typed' h1).symm.trans h2) hu
  · intro h
    exact .mk hn ht (by rw [h]; simp)

theorem rel_nil_iff_edge {g : SGraph F} {x : Str} {n : Node NType (Int × JVal F)} (hn : getNode g x = some n) :
    n.children = [] ↔ ∀ y, ¬ Edge g x y := by
  constructor
  · rintro h y ⟨m, hm, hy⟩
    rw [hn] at hm; injection hm with hm; subst hm
    rw [h] at hy; cases hy
  · intro h
    cases hl : n.children with
    | nil => rfl
    | cons y l => exact absurd ⟨n, hn, by simp [hl]⟩ (h y)

theorem edge_cases {sh : GShape F} {p c : Str} (h : GShape.Link sh p c) :
    (∃ a b, p = graphId .bone a ∧ c = graphId .bone b) ∨ (∃ a b, p = graphId .bone a ∧ c = graphId .slot b) ∨
    (∃ s ∈ sh.slots, ∃ a ∈ s.atts, p = graphId .slot s.name ∧ c = graphId .attachment a.1) ∨
    (∃ s ∈ sh.slots, ∃ a ∈ s.atts, p = graphId .attachment a.1 ∧ c = graphId .image a.2.1) ∨
    (∃ a b, p = graphId .ik a ∧ c = graphId .bone b) ∨ (∃ a b, p = graphId .bone a ∧ c = graphId .ik b) := by
  cases h with
  | bone _ _ => exact .inl ⟨_, _, rfl, rfl⟩
  | slot _ _ => exact .inr (.inl ⟨_, _, rfl, rfl⟩)
  | att hs ha => exact .inr (.inr (.inl ⟨_, hs, _, ha, rfl, rfl⟩))
  | image hs ha => exact .inr (.inr (.inr (.inl ⟨_, hs, _, ha, rfl, rfl⟩)))
  | ikBone _ _ _ => exact .inr (.inr (.inr (.inr (.inl ⟨_, _, rfl, rfl⟩))))
  | ikTarget _ _ _ => exact .inr (.inr (.inr (.inr (.inr ⟨_, _, rfl, rfl⟩))))

/-- dictionaries of animations have no repeated slot and no repeated skin (true of every Python dict) -/
structure AnimData.DistinctAnims (a : AnimData F) : Prop where
  slots : ∀ p ∈ a.animations, (Dict.keys p.2.slots).Nodup
  deform : ∀ p ∈ a.animations, (Dict.keys p.2.deform).Nodup
  names : (Dict.keys a.animations).Nodup

namespace Editor

/-- the graph shows the skins, and names, defaults and images are in order -/
structure Sync (e : Editor F) : Prop where
  ecore : ECore e
  dflt : e.data.setDefaults e.doc.version.is38 = e.data
  slots : All₂ (fun p (x : Slot F) => p.1 = graphId .slot x.name ∧ p.2.2 = x.toJson e.doc.version.is38) (nodesOf e.graph .slot) e.data.slots
  edge_of : ∀ slot k x, e.data.HasAtt slot k x → Edge e.graph (graphId .slot slot) (graphId .attachment k)
  edge_slot : ∀ n y, Edge e.graph (graphId .slot n) y → ∃ k x, y = graphId .attachment k ∧ e.data.HasAtt n k x
  att_parent : ∀ p k, Edge e.graph p (graphId .attachment k) → ∃ n, p = graphId .slot n
  att_child : ∀ k c, Edge e.graph (graphId .attachment k) c → ∃ i, c = graphId .image i
  img_parent : ∀ p i, Edge e.graph p (graphId .image i) → ∃ k, p = graphId .attachment k
  img_of : ∀ slot k x i, e.data.HasAtt slot k x → ImageName k x i → Edge e.graph (graphId .attachment k) (graphId .image i)
  slot_bone : ∀ slot k x, e.data.HasAtt slot k x → ∃ s ∈ e.data.slots, s.name = slot ∧ s.bone ≠ none
  cover : ∀ i, e.data.UsesImage i → i ∈ Dict.keys e.images
  names : e.data.NamesOk
  imgs : ∀ i, HasNode e.graph (graphId .image i) → Clean .image i
  distinct : e.data.Distinct
  sane : e.data.SaneAtts
  anims : e.data.DistinctAnims

variable {e : Editor F}

theorem Sync.core (h : Sync e) : Core e.doc.version.is38 e.graph := h.ecore.core

theorem Sync.hasSlot (h : Sync e) (n : Str) : HasNode e.graph (graphId .slot n) ↔ ∃ s ∈ e.data.slots, s.name = n := by
  constructor
  · rintro ⟨nd, hn⟩
    have ht := h.core.typed' hn
    obtain ⟨s, hs, hp, _⟩ := h.slots.left ((mem_nodesOf h.core.wf .slot _ nd.data).2 ⟨nd, hn, ht, rfl⟩)
    exact ⟨s, hs, (graphId_inj hp).2.symm⟩
  · rintro ⟨s, hs, rfl⟩
    obtain ⟨⟨x, d⟩, hp, hx, _⟩ := h.slots.right hs
    obtain ⟨nd, hn, _, _⟩ := (mem_nodesOf h.core.wf .slot x d).1 hp
    simp only at hx
    exact ⟨nd, hx ▸ hn⟩

theorem nodesOf_ids_nodup {g : SGraph F} (hg : WF g) (t : NType) : ((nodesOf g t).map (·.1)).Nodup := by
  have : ((nodesOf g t).map (·.1)) = (g.nodes.filter (fun p => p.2.ntype = t)).map (·.1) := by
    simp [nodesOf]
  rw [this]
  exact hg.keys_nodup.sublist (List.filter_sublist.map _)

theorem Sync.slotNames (h : Sync e) : (e.data.slots.map (·.name)).Nodup := by
  have h1 := nodesOf_ids_nodup h.core.wf .slot
  rw [h.slots.map_eq (f := fun p => p.1) (g := fun s => graphId .slot s.name) (fun _ _ h => h.1)] at h1
  have : e.data.slots.map (fun s => graphId .slot s.name) = (e.data.slots.map (·.name)).map (graphId .slot) := by simp
  rw [this] at h1
  rw [List.nodup_iff_pairwise_ne, List.pairwise_map] at h1
  exact h1.imp (fun hne e => hne (by rw [e]))

theorem wf_edge_nodes {g : SGraph F} (hg : WF g) {x y : Str} (h : Edge g x y) : HasNode g x ∧ HasNode g y := by
  obtain ⟨n, hn, hy⟩ := h
  obtain ⟨m, hm, _⟩ := hg.child_link hn hy
  exact ⟨⟨n, hn⟩, ⟨m, hm⟩⟩

/-! ### A graph just built -/

theorem sync_fresh {e : Editor F} (hb : ∀ b ∈ e.data.bones, Bone.Good b) (hi : KeysOf ikCls e.data.ik)
    (hd : e.data.setDefaults e.doc.version.is38 = e.data) (hdi : e.data.Distinct) (hx : e.data.SaneAtts)
    (han : e.data.DistinctAnims)
    (hsb : ∀ slot k x, e.data.HasAtt slot k x → ∃ s ∈ e.data.slots, s.name = slot ∧ s.bone ≠ none)
    (hcov : ∀ i, e.data.UsesImage i → i ∈ Dict.keys e.images) (hn : e.data.NamesOk)
    (hg : SpineNodes.create e.toJson = .ok e.graph) : Sync e := by
  have hg' : SpineNodes.create e.doc.toJson = .ok e.graph := hg
  obtain ⟨sh, h1, h2⟩ := GShape.create_built hg'
  have hsh := GShape.read_toJson e.doc hb hdi hx h1
  have att : ∀ s ∈ sh.slots, ∀ a ∈ s.atts, ∃ x, e.data.HasAtt s.name a.1 x ∧ ImageName a.1 x a.2.1 := by
    intro s hs a ha
    obtain ⟨v, hv, e1, _, _, e4⟩ := hsh.slots.right hs
    obtain ⟨x, hx, _, hi⟩ := (e4 a.1 a.2.1 a.2.2).1 ha
    exact ⟨x, e1 ▸ hx, hi⟩
  have att' : ∀ slot k x i, e.data.HasAtt slot k x → ImageName k x i → ∃ s ∈ sh.slots, s.name = slot ∧ ∃ a ∈ s.atts, a.1 = k ∧ a.2.1 = i := by
    intro slot k x i h hi
    obtain ⟨v, hv, hvn, _⟩ := hsb slot k x h
    obtain ⟨s, hs, e1, _, _, e4⟩ := hsh.slots.left hv
    subst hvn
    exact ⟨s, hs, e1, _, (e4 k i _).2 ⟨x, h, rfl, hi⟩, rfl, rfl⟩
  refine ⟨⟨core_fresh hg' hb hi, hb, hi⟩, hd, (nodesOf_fresh hg').2.1, ?_, ?_, ?_, ?_, ?_, ?_, hsb, hcov, hn, ?_, hdi, hx, han⟩
  · intro slot k x h
    obtain ⟨i, hi⟩ := ImageName.exists k x
    obtain ⟨s, hs, rfl, a, ha, rfl, _⟩ := att' slot k x i h hi
    exact (h2.edge _ _).2 (.att hs ha)
  · intro n y h
    rcases edge_cases ((h2.edge _ _).1 h) with ⟨a, b, h, _⟩ | ⟨a, b, h, _⟩ | ⟨s, hs, a, ha, h, h'⟩ | ⟨s, hs, a, ha, h, h'⟩ | ⟨a, b, h, _⟩ | ⟨a, b, h, _⟩
    all_goals first
      | (cases (graphId_inj h).1; done)
      | skip
    obtain ⟨x, hx, _⟩ := att s hs a ha
    rw [(graphId_inj h).2]
    exact ⟨a.1, x, h', hx⟩
  · intro p k h
    rcases edge_cases ((h2.edge _ _).1 h) with ⟨a, b, _, h⟩ | ⟨a, b, _, h⟩ | ⟨s, hs, a, ha, h', h⟩ | ⟨s, hs, a, ha, h', h⟩ | ⟨a, b, _, h⟩ | ⟨a, b, _, h⟩
    all_goals first
      | (cases (graphId_inj h).1; done)
      | skip
    exact ⟨_, h'⟩
  · intro k c h
    rcases edge_cases ((h2.edge _ _).1 h) with ⟨a, b, h, _⟩ | ⟨a, b, h, _⟩ | ⟨s, hs, a, ha, h, h'⟩ | ⟨s, hs, a, ha, h, h'⟩ | ⟨a, b, h, _⟩ | ⟨a, b, h, _⟩
    all_goals first
      | (cases (graphId_inj h).1; done)
      | skip
    exact ⟨_, h'⟩
  · intro p k h
    rcases edge_cases ((h2.edge _ _).1 h) with ⟨a, b, _, h⟩ | ⟨a, b, _, h⟩ | ⟨s, hs, a, ha, h', h⟩ | ⟨s, hs, a, ha, h', h⟩ | ⟨a, b, _, h⟩ | ⟨a, b, _, h⟩
    all_goals first
      | (cases (graphId_inj h).1; done)
      | skip
    exact ⟨_, h'⟩
  · intro slot k x i h hi
    obtain ⟨s, hs, rfl, a, ha, rfl, rfl⟩ := att' slot k x i h hi
    exact (h2.edge _ _).2 (.image hs ha)
  · intro i h
    obtain ⟨s, hs, a, ha, rfl⟩ := (h2.has_image i).1 h
    obtain ⟨x, hx, hi⟩ := att s hs a ha
    exact hn.images _ _ _ _ hx hi

end Editor
end Spine
