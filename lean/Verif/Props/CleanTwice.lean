import Verif.Props.Clean
import Verif.Props.CleanBones
import Verif.Props.DrawTwice
/- C54: `clean_animation` a second time. -/
set_option linter.unusedSectionVars false
set_option linter.unusedSimpArgs false
namespace Spine
open JVal Graph Container
variable {F : Type} [PyRt F]
namespace Editor
variable {e e' e'' : Editor F} {ids atts : List Str}

/-! ### The graph of a cleaned editor has nothing to detach -/

/-- every attachment node has a slot and an image, every image node an attachment -/
structure Attached (g : SGraph F) : Prop where
  up : ∀ k, HasNode g (graphId .attachment k) → ∃ n, Edge g (graphId .slot n) (graphId .attachment k)
  down : ∀ k, HasNode g (graphId .attachment k) → ∃ i, Edge g (graphId .attachment k) (graphId .image i)
  img : ∀ i, HasNode g (graphId .image i) → ∃ k, Edge g (graphId .attachment k) (graphId .image i)

theorem attached_clean (hs : Sync e) (h : clean e = (.ok (ids, atts), e')) : Attached e'.graph := by
  obtain ⟨slots, L, A, B, I, g0, g1, g2, g3, bs, ss, is, an, hr⟩ := clean_run hs.core h
  have k1 : ∀ {x y}, Edge g1 x y → Edge e.graph x y := by
    intro x y h; rw [hr.nodes1, edge_restrict] at h; exact h.1
  have k2 : ∀ {x y}, Edge g2 x y → Edge e.graph x y := by
    intro x y h; rw [hr.hg2, edge_restrict] at h; exact k1 h.1
  have k3 : ∀ {x y}, Edge g3 x y → Edge e.graph x y := by
    intro x y h; rw [hr.hg3, edge_restrict] at h; exact k2 h.1
  -- an attachment node that is left has a parent and a child in every stage
  have up1 : ∀ k, HasNode g1 (graphId .attachment k) → graphId .attachment k ∉ A → ∃ n, Edge g1 (graphId .slot n) (graphId .attachment k) := by
    intro k hn hA
    rw [hr.hA, doomed_edge (hr.core1 hs) hn] at hA
    · obtain ⟨p, hp⟩ := Classical.not_forall.1 hA
      have hp := Classical.not_not.1 hp
      obtain ⟨n, rfl⟩ := hs.att_parent _ _ (k1 hp)
      exact ⟨n, hp⟩
    · intro p hp
      obtain ⟨m, rfl⟩ := hs.att_parent _ _ (k1 hp)
      exact ⟨.slot, m, by decide, rfl⟩
  have dn2 : ∀ k, HasNode g2 (graphId .attachment k) → graphId .attachment k ∉ B → ∃ i, Edge g2 (graphId .attachment k) (graphId .image i) := by
    intro k hn hB
    rw [hr.hB, doomed_edge_down (hr.core2 hs) hn] at hB
    · obtain ⟨p, hp⟩ := Classical.not_forall.1 hB
      have hp := Classical.not_not.1 hp
      obtain ⟨n, rfl⟩ := hs.att_child _ _ (k2 hp)
      exact ⟨n, hp⟩
    · intro p hp
      obtain ⟨m, rfl⟩ := hs.att_child _ _ (k2 hp)
      exact ⟨.image, m, by decide, rfl⟩
  have im3 : ∀ i, HasNode g3 (graphId .image i) → graphId .image i ∉ I → ∃ k, Edge g3 (graphId .attachment k) (graphId .image i) := by
    intro k hn hI
    rw [hr.hI, doomed_edge (hr.core3 hs) hn] at hI
    · obtain ⟨p, hp⟩ := Classical.not_forall.1 hI
      have hp := Classical.not_not.1 hp
      obtain ⟨n, rfl⟩ := hs.img_parent _ _ (k3 hp)
      exact ⟨n, hp⟩
    · intro p hp
      obtain ⟨m, rfl⟩ := hs.img_parent _ _ (k3 hp)
      exact ⟨.attachment, m, by decide, rfl⟩
  refine ⟨?_, ?_, ?_⟩
  · intro k hn
    rw [hr.graph, hasNode_restrict, hr.hg3, hasNode_restrict, hr.hg2, hasNode_restrict] at hn
    obtain ⟨⟨⟨hn, hA⟩, hB⟩, hI⟩ := hn
    obtain ⟨n, he⟩ := up1 k hn hA
    refine ⟨n, ?_⟩
    rw [hr.graph, edge_restrict, hr.hg3, edge_restrict, hr.hg2, edge_restrict]
    exact ⟨⟨⟨he, fun h => (by cases hr.typeA hs h), hA⟩, fun h => (by cases hr.typeB hs h), hB⟩, fun h => (by cases hr.typeI hs h), hI⟩
  · intro k hn
    rw [hr.graph, hasNode_restrict, hr.hg3, hasNode_restrict] at hn
    obtain ⟨⟨hn, hB⟩, hI⟩ := hn
    obtain ⟨i, he⟩ := dn2 k hn hB
    have h3 : Edge g3 (graphId .attachment k) (graphId .image i) := by
      rw [hr.hg3, edge_restrict]; exact ⟨he, hB, fun h => (by cases hr.typeB hs h)⟩
    refine ⟨i, ?_⟩
    rw [hr.graph, edge_restrict]
    refine ⟨h3, hI, ?_⟩
    rw [hr.hI, doomed_edge (hr.core3 hs) (wf_edge_nodes (hr.core3 hs).wf h3).2]
    · intro hno; exact hno _ h3
    · intro p hp
      obtain ⟨m, rfl⟩ := hs.img_parent _ _ (k3 hp)
      exact ⟨.attachment, m, by decide, rfl⟩
  · intro i hn
    rw [hr.graph, hasNode_restrict] at hn
    obtain ⟨k, he⟩ := im3 i hn.1 hn.2
    refine ⟨k, ?_⟩
    rw [hr.graph, edge_restrict]
    exact ⟨he, fun h => (by cases hr.typeI hs h), hn.2⟩

/-! ### Cleaning an editor on which nothing is unused -/

/-- the bones and iks are what reading back the graph gives -/
structure ReadBack (e : Editor F) : Prop where
  bones : ∃ bs, mapE Bone.init ((nodesOf e.graph .bone).map (·.2.2)) = .ok bs ∧ e.data.bones = bs.map (·.setDefaults e.doc.version.is38)
  iks : ∃ is, mapE ikCls.init ((nodesOf e.graph .ik).map (·.2.2)) = .ok is ∧ e.data.ik = is.map (ikCls.setDefaults e.doc.version.is38)

theorem readBack_clean (hs : Sync e) (h : clean e = (.ok (ids, atts), e')) : ReadBack e' := by
  obtain ⟨slots, L, A, B, I, g0, g1, g2, g3, bs, ss, is, an, hr⟩ := clean_run hs.core h
  have c1 := hr.core1 hs
  have hg : ∀ t, t = NType.bone ∨ t = .ik → nodesOf e'.graph t = nodesOf g1 t := by
    intro t ht
    rw [hr.graph, hr.hg3, hr.hg2, restrict_restrict, restrict_restrict]
    refine Loose.nodesOf c1 (Loose.append ?_ (Loose.append ?_ ?_)) ht
    · exact Doomed.loose c1 (by decide) (by decide) (fun x hx => (hr.hA x).1 hx)
    · exact Doomed.loose (hr.core2 hs) (by decide) (by decide) (fun x hx => (hr.hB x).1 hx)
    · exact Doomed.loose (hr.core3 hs) (by decide) (by decide) (fun x hx => (hr.hI x).1 hx)
  refine ⟨⟨bs, by rw [hg _ (.inl rfl)]; exact hr.hbs, ?_⟩, ⟨is, by rw [hg _ (.inr rfl)]; exact hr.his, ?_⟩⟩
  · rw [hr.data, hr.version]; rfl
  · rw [hr.data, hr.version]; rfl

theorem setList_nil : setList F [] = [] := by
  apply List.eq_nil_iff_forall_not_mem.2
  intro x hx
  simp [mem_setList] at hx

theorem set_same {α : Type} {d : Dict α} {k : Str} {v : α} (h : Dict.get? d k = some v) : Dict.set d k v = d := by
  induction d with
  | nil => simp [Dict.get?] at h
  | cons p d ih =>
    obtain ⟨a, w⟩ := p
    rw [Dict.get?] at h
    rw [Dict.set]
    split at h
    · rename_i e
      injection h with h
      rw [if_pos e, h, e]
    · rename_i e
      rw [if_neg e, ih h]

theorem dmap_id' {α : Type} {f : α → α} (h : ∀ x, f x = x) (d : Dict α) : dmap f d = d := dmap_fixed_iff.2 (fun p _ => h p.2)

theorem filter_true' {α : Type} (l : List α) : l.filter (fun _ => true) = l := List.filter_eq_self.2 (fun _ _ => rfl)

theorem removeSlots_nil (x : Anim F) : (x.removeSlots []).removeDeformSlots [] = x := by
  unfold Anim.removeSlots Anim.removeDeformSlots
  simp only [List.not_mem_nil, not_false_eq_true, decide_true, filter_true']
  rw [dmap_id' (fun _ => rfl)]

theorem removeDeformAtts_nil (n : Str) (x : Anim F) : x.removeDeformAtts [] n = x := by
  unfold Anim.removeDeformAtts
  split
  · rfl
  · rename_i d hd
    simp only [List.not_mem_nil, not_false_eq_true, decide_true, filter_true']
    rw [dmap_id' (fun _ => rfl), set_same hd]

theorem cutSkin_nil (s : Skin F) : cutSkin [] [] s = s := by
  unfold cutSkin
  simp only [List.not_mem_nil, not_false_eq_true, decide_true, filter_true']
  rw [dmap_id' (fun _ => rfl)]

theorem removeDrawOrder_same {orig : List (Slot F)} {x : Anim F}
    (h : ∀ t ∈ x.drawOrder, DrawOrder.removeOffsets Slot.name [] orig t.offsets = .ok t.offsets) :
    x.removeDrawOrder [] orig = (.ok (), x) := by
  have hm : mapMut (Anim.cleanDraw [] orig) x.drawOrder = (.ok (), x.drawOrder) := by
    rw [mapMut_ok]
    generalize x.drawOrder = l at h
    induction l with
    | nil => exact .nil
    | cons t l ih =>
      refine .cons ?_ (ih (fun t ht => h t (by simp [ht])))
      unfold Anim.cleanDraw
      rw [h t (by simp)]
  unfold Anim.removeDrawOrder
  rw [hm]

theorem All₂.eq_of {α : Type} {R : α → α → Prop} {l m : List α} (h : All₂ R l m) (hr : ∀ x y, x ∈ l → R x y → y = x) : m = l := by
  induction h with
  | nil => rfl
  | cons h1 _ ih => rw [hr _ _ (by simp) h1, ih (fun x y hx => hr x y (by simp [hx]))]

/-- cleaning changes nothing when nothing is unused, no slot is bare and the rest is in the form cleaning leaves -/
theorem clean_settled (hs : Sync e) (hb : ReadBack e) (ha : Attached e.graph) (hu : AnimData.unused e.data = .ok ([], []))
    (hbare : ∀ s ∈ e.data.slots, ∃ k x, e.data.HasAtt s.name k x)
    (hd : ∀ p ∈ e.data.animations, ∀ t ∈ p.2.drawOrder, DrawOrder.removeOffsets Slot.name [] e.data.slots t.offsets = .ok t.offsets) :
    clean e = (.ok ([], []), e) := by
  have hnb : ¬ BadDraw e.data := by
    rintro ⟨p, hp, t, ht, k, hk, hno⟩
    have := ((DrawOrder.c45_fails_only_on_unknown_slot (name := Slot.name) [] e.data.slots t.offsets hs.slotNames).1).1
      ⟨k, (mem_keys_offsetDict _ _).2 hk, by simp, fun hm => by
        obtain ⟨s, hs', e1⟩ := List.mem_map.1 hm
        exact hno s hs' e1⟩
    rw [hd p hp t ht] at this; cases this
  obtain ⟨⟨ids, atts⟩, e', h⟩ := clean_total hs hu hnb
  obtain ⟨slots, L, A, B, I, g0, g1, g2, g3, bs, ss, is, an, hr⟩ := clean_run hs.core h
  have h0 := hr.unused
  rw [hu] at h0
  simp only [Except.ok.injEq, Prod.mk.injEq] at h0
  obtain ⟨rfl, rfl⟩ := h0
  have hL : L = [] := by
    apply List.eq_nil_iff_forall_not_mem.2
    intro x hx
    obtain ⟨n, rfl, _, ⟨s, hs', rfl⟩, hbr, _⟩ := hr.L_ids hs hx
    obtain ⟨k, x, hx⟩ := hbare s hs'
    have := hbr k x hx
    cases this
  subst hL
  have hids : ids = [] := by rw [hr.hids]; exact setList_nil
  subst hids
  have hg1 : g1 = e.graph := by
    rw [hr.nodes1]
    simp [namedIds, setList_nil, restrict_nil]
  subst hg1
  have hA : A = [] := by
    apply List.eq_nil_iff_forall_not_mem.2
    intro x hx
    have hdm := (hr.hA x).1 hx
    obtain ⟨nd, hn⟩ : HasNode e.graph x := by cases hdm with | mk hn _ _ => exact ⟨_, hn⟩
    obtain ⟨_, k, rfl⟩ := hs.core.typed x nd hn
    rw [hr.typeA hs hx] at hdm hn
    obtain ⟨n, he⟩ := ha.up k ⟨nd, hn⟩
    rw [doomed_edge hs.core ⟨nd, hn⟩] at hdm
    · exact hdm _ he
    · intro p hp
      obtain ⟨m, rfl⟩ := hs.att_parent _ _ hp
      exact ⟨.slot, m, by decide, rfl⟩
  subst hA
  have hg2 : g2 = e.graph := by rw [hr.hg2, restrict_nil]
  subst hg2
  have hB : B = [] := by
    apply List.eq_nil_iff_forall_not_mem.2
    intro x hx
    have hdm := (hr.hB x).1 hx
    obtain ⟨nd, hn⟩ : HasNode e.graph x := by cases hdm with | mk hn _ _ => exact ⟨_, hn⟩
    obtain ⟨_, k, rfl⟩ := hs.core.typed x nd hn
    rw [hr.typeB hs hx] at hdm hn
    obtain ⟨n, he⟩ := ha.down k ⟨nd, hn⟩
    rw [doomed_edge_down hs.core ⟨nd, hn⟩] at hdm
    · exact hdm _ he
    · intro p hp
      obtain ⟨m, rfl⟩ := hs.att_child _ _ hp
      exact ⟨.image, m, by decide, rfl⟩
  subst hB
  have hg3 : g3 = e.graph := by rw [hr.hg3, restrict_nil]
  subst hg3
  have hI : I = [] := by
    apply List.eq_nil_iff_forall_not_mem.2
    intro x hx
    have hdm := (hr.hI x).1 hx
    obtain ⟨nd, hn⟩ : HasNode e.graph x := by cases hdm with | mk hn _ _ => exact ⟨_, hn⟩
    obtain ⟨_, k, rfl⟩ := hs.core.typed x nd hn
    rw [hr.typeI hs hx] at hdm hn
    obtain ⟨n, he⟩ := ha.img k ⟨nd, hn⟩
    rw [doomed_edge hs.core ⟨nd, hn⟩] at hdm
    · exact hdm _ he
    · intro p hp
      obtain ⟨m, rfl⟩ := hs.img_parent _ _ hp
      exact ⟨.attachment, m, by decide, rfl⟩
  subst hI
  have hgr : e'.graph = e.graph := by rw [hr.graph, restrict_nil]
  have him : e'.images = e.images := by rw [hr.images]; simp
  have han : an = e.data.animations := by
    refine All₂.eq_of (hr.result_an hs) ?_
    rintro p q hp ⟨h1, h2⟩
    rw [removeSlots_nil, removeDrawOrder_same (hd p hp)] at h2
    simp only [Prod.mk.injEq, true_and] at h2
    exact Prod.ext h1 h2.symm
  have hanim : e'.data.animations = e.data.animations := by
    rw [hr.result_animations hs, han]
    generalize e.data.skins.map (·.name) = l
    generalize e.data.animations = d
    induction l with
    | nil => rfl
    | cons n l ih =>
      rw [List.foldl_cons, dmap_id' (removeDeformAtts_nil n)]
      exact ih
  have hsl : e'.data.slots = e.data.slots := by rw [hr.result_slots hs]; simp
  have hsk : e'.data.skins = e.data.skins := by
    rw [hr.result_skins hs, map_fixed_iff.2 (fun s _ => cutSkin_nil s)]
  obtain ⟨h1, h2, h3⟩ := hr.result_events hs
  obtain ⟨h4, h5⟩ := hr.result_bones
  have hbn : e'.data.bones = e.data.bones := by
    obtain ⟨bs', k1, k2⟩ := hb.bones
    rw [h4, k2]
    have := hr.hbs; rw [k1] at this; injection this with this; rw [this]
  have hik : e'.data.ik = e.data.ik := by
    obtain ⟨bs', k1, k2⟩ := hb.iks
    rw [h5, k2]
    have := hr.his; rw [k1] at this; injection this with this; rw [this]
  have hdata : e'.data = e.data := by
    generalize e'.data = a at *
    generalize e.data = b at *
    cases a; cases b
    simp_all
  rw [h]
  have : e' = e := by
    have hv := hr.version
    have hk := hr.skeleton
    obtain ⟨⟨s', v', d'⟩, i', g'⟩ := e'
    obtain ⟨⟨s, v, d⟩, i, g⟩ := e
    simp only at hv hk him hgr
    have hdata : d' = d := hdata
    subst hv hk him hgr hdata
    rfl
  rw [this]

/-! ### What a slot shows, before and after -/

theorem shown_cleaned {skins : List Str} {orig : List (Slot F)} {x x' : Anim F} (hc : x.Cleaned ids atts skins orig x') {s : Slot F}
    (hs : s.name ∉ ids) : x'.Shown s ↔ x.Shown s := by
  have hk : s.name ∈ Dict.keys x'.slots ↔ s.name ∈ Dict.keys x.slots := by
    rw [hc.slots]
    unfold Dict.keys
    rw [List.mem_map, List.mem_map]
    constructor
    · rintro ⟨p, hp, e1⟩; exact ⟨p, (List.mem_filter.1 hp).1, e1⟩
    · rintro ⟨p, hp, e1⟩; exact ⟨p, List.mem_filter.2 ⟨hp, by rw [e1]; simpa using hs⟩, e1⟩
  have hm : ∀ t, (s.name, t) ∈ x'.slots ↔ (s.name, t) ∈ x.slots := by
    intro t
    rw [hc.slots, List.mem_filter]
    simp [hs]
  constructor
  · intro h
    cases h with
    | setup h1 h2 h3 => exact .setup (fun h => h1 (hk.2 h)) h2 h3
    | timeline h1 h2 h3 h4 => exact .timeline ((hm _).1 h1) h2 h3 h4
  · intro h
    cases h with
    | setup h1 h2 h3 => exact .setup (fun h => h1 (hk.1 h)) h2 h3
    | timeline h1 h2 h3 h4 => exact .timeline ((hm _).2 h1) h2 h3 h4

theorem result_shown (hs : Sync e) (h : clean e = (.ok (ids, atts), e')) {s : Slot F} (hm : s.name ∉ ids) :
    e'.data.Shown s ↔ e.data.Shown s := by
  have ha := clean_anims_sync hs h
  constructor
  · rintro ⟨n, x', hx, hsh⟩
    obtain ⟨⟨m, x⟩, hp, e1, hc⟩ := ha.right hx
    exact ⟨m, x, hp, (shown_cleaned hc hm).1 hsh⟩
  · rintro ⟨n, x, hx, hsh⟩
    obtain ⟨⟨m, x'⟩, hp, e1, hc⟩ := ha.left hx
    exact ⟨m, x', hp, (shown_cleaned hc hm).2 hsh⟩

theorem mem_result_slots (hs : Sync e) (h : clean e = (.ok (ids, atts), e')) (s : Slot F) :
    s ∈ e'.data.slots ↔ s ∈ e.data.slots ∧ s.name ∉ ids := by
  rw [result_slots hs h, List.mem_filter]; simp

/-- a slot that is left is shown and has an attachment -/
theorem left_slot (hs : Sync e) (h : clean e = (.ok (ids, atts), e')) {s : Slot F} (hm : s ∈ e'.data.slots) :
    e'.data.Shown s ∧ ∃ k x, e'.data.HasAtt s.name k x := by
  obtain ⟨h1, h2⟩ := (mem_result_slots hs h s).1 hm
  have h3 := h2
  rw [mem_ids hs h] at h3
  refine ⟨(result_shown hs h h2).2 (Classical.not_not.1 (fun hn => h3 ⟨s, h1, rfl, .inl hn⟩)), ?_⟩
  obtain ⟨k, x, hx, hk⟩ := Classical.not_not.1 (fun hn => h3 ⟨s, h1, rfl, .inr hn⟩)
  exact ⟨k, x, (result_hasAtt hs h _ _ _).2 ⟨hx, h2, hk⟩⟩

/-! ## C54 -/

/-- C54, exactly: a second call returns empty lists and changes nothing at all if and only if the first call left no attachment
that is unneeded now, and no animation without slot timelines while every slot that is left is invisible by default. -/
theorem c54_second_iff (hr : Ran e) (h : clean e = (.ok (ids, atts), e')) :
    clean e' = (.ok ([], []), e') ↔ (∀ k, ¬ Unneeded e'.data k) ∧
      ¬ ∃ p ∈ e'.data.animations, p.2.slots = [] ∧ ∀ s ∈ e'.data.slots, Transparent s ∨ s.Plain := by
  have hs := hr.sync
  have hs' : Sync e' := sync_clean hs h
  have ha := clean_anims_sync hs h
  constructor
  · intro h2
    refine ⟨fun k hk => ?_, ?_⟩
    · have := (mem_atts hs' h2 k).2 hk
      cases this
    · rintro ⟨p, h3, h4, h5⟩
      obtain ⟨x, hx⟩ := (AnimData.unused_error hs'.slotNames hs'.anims.slots).2 (.inr (.inr ⟨p, h3, h4, h5⟩))
      unfold clean at h2
      simp only [hx] at h2
      cases h2
  · rintro ⟨h1, h2⟩
    have hu : AnimData.unused e'.data = .ok ([], []) := by
      cases hq : AnimData.unused e'.data with
      | error x =>
        exfalso
        obtain ⟨slots, L, A, B, I, g0, g1, g2, g3, bs, ss, is, an, hrun⟩ := clean_run hs.core h
        have hno : ¬ ∃ y, AnimData.unused e.data = .error y := by
          rintro ⟨y, hy⟩
          have := hrun.unused
          rw [hy] at this; cases this
        rw [AnimData.unused_error hs.slotNames hs.anims.slots] at hno
        rcases (AnimData.unused_error hs'.slotNames hs'.anims.slots).1 ⟨x, hq⟩ with ⟨s, k1, k2⟩ | ⟨p, k1, n, k2, k3⟩ | k
        · exact hno (.inl ⟨s, ((mem_result_slots hs h s).1 k1).1, k2⟩)
        · obtain ⟨p0, hp0, _, hc⟩ := ha.right k1
          rw [hc.slots] at k2
          obtain ⟨q, hq, e1⟩ := List.mem_map.1 k2
          obtain ⟨hq1, hq2⟩ := List.mem_filter.1 hq
          rw [e1] at hq2
          refine hno (.inr (.inl ⟨p0, hp0, n, List.mem_map.2 ⟨q, hq1, e1⟩, ?_⟩))
          rcases k3 with k3 | k3
          · exact .inl k3
          · refine .inr (fun s hsm e2 => ?_)
            exact k3 s ((mem_result_slots hs h s).2 ⟨hsm, by rw [e2]; simpa using hq2⟩) e2
        · exact h2 k
      | ok r =>
        obtain ⟨sl, at'⟩ := r
        obtain ⟨u1, u2⟩ := AnimData.unused_spec hs'.slotNames hs'.anims.slots hq
        have : sl = [] := by
          apply List.eq_nil_iff_forall_not_mem.2
          intro n hn
          obtain ⟨s, hm, _, hsh⟩ := (u1 n).1 hn
          exact hsh (left_slot hs h hm).1
        have : at' = [] := by
          apply List.eq_nil_iff_forall_not_mem.2
          intro k hk
          obtain ⟨h3, slot, x, h4, h5⟩ := (u2 k).1 hk
          refine h1 k ⟨h3, slot, x, h4, fun ⟨h6, s, hm, e1, hsh⟩ => h5 ⟨h6, ?_⟩⟩
          rintro ⟨s', hm', e2, hsh'⟩
          exact hsh' (left_slot hs h hm').1
        simp [*]
    refine clean_settled hs' (readBack_clean hs h) (attached_clean hs h) hu (fun s hm => (left_slot hs h hm).2) ?_
    intro p hp t ht
    obtain ⟨p0, _, _, hc⟩ := ha.right hp
    obtain ⟨t0, _, _, ho⟩ := hc.draw.right ht
    have := DrawOrder.c45_rewrite_twice (name := Slot.name) ids e.data.slots t0.offsets t.offsets hs.slotNames ho
    rw [result_slots hs h]
    exact this

/-- C54: a second call changes nothing, when every slot that is shown has an attachment that is kept, and no animation is
left without slot timelines while no slot is visible by default.
Missing: the other documents; there it is false (`c54_counterexample`, `c54_counterexample_raises`). -/
theorem c54_second_partial (hr : Ran e) (h : clean e = (.ok (ids, atts), e'))
    (h1 : ∀ s ∈ e.data.slots, e.data.Shown s → ∃ k x, e.data.HasAtt s.name k x ∧ ¬ Unneeded e.data k)
    (h2 : ∀ p ∈ e'.data.animations, p.2.slots = [] → ∃ s ∈ e'.data.slots, ¬ Transparent s ∧ ¬ s.Plain) :
    clean e' = (.ok ([], []), e') := by
  have hs := hr.sync
  have stay : ∀ s ∈ e.data.slots, e.data.Shown s → s.name ∉ ids := by
    intro s hm hsh hi
    obtain ⟨s', hm', e1, k⟩ := (mem_ids hs h _).1 hi
    rw [nodup_map_inj hs.slotNames hm' hm e1] at k
    rcases k with k | k
    · exact k hsh
    · obtain ⟨k', x, hx, hk⟩ := h1 s hm hsh
      exact k ⟨k', x, hx, fun h' => hk ((mem_atts hs h _).1 h')⟩
  rw [c54_second_iff hr h]
  refine ⟨?_, ?_⟩
  · rintro k ⟨hu, slot, x, hx, hno⟩
    obtain ⟨hx0, hsl, hk⟩ := (result_hasAtt hs h _ _ _).1 hx
    rw [mem_atts hs h] at hk
    have huse : ¬ e.data.Uses k := by
      rintro ⟨n, a, ha, s, hm, hsh, hor⟩
      have hst := stay s hm ⟨n, a, ha, hsh⟩
      obtain ⟨⟨n', a'⟩, ha', _, hc⟩ := (clean_anims_sync hs h).left ha
      refine hu ⟨n', a', ha', s, (mem_result_slots hs h s).2 ⟨hm, hst⟩, (shown_cleaned hc hst).2 hsh, ?_⟩
      rcases hor with hor | ⟨t, ht, htk⟩
      · exact .inl hor
      · refine .inr ⟨t, ?_, htk⟩
        rw [hc.slots, List.mem_filter]
        exact ⟨ht, by simpa using hst⟩
    refine hk ⟨huse, slot, x, hx0, fun ⟨hm, s, hsm, e1, hsh⟩ => hno ⟨hm, s, ?_, e1, ?_⟩⟩
    · exact (mem_result_slots hs h s).2 ⟨hsm, e1 ▸ hsl⟩
    · exact (result_shown hs h (e1 ▸ hsl)).2 hsh
  · rintro ⟨p, hp, hp', hall⟩
    obtain ⟨s, hm, h3, h4⟩ := h2 p hp hp'
    rcases hall s hm with h5 | h5
    · exact h3 h5
    · exact h4 h5

end Editor
end Spine
