import Verif.Lemmas.EraseTotal
import Verif.Lemmas.Refs
/- The graph of a document can be rebuilt after any history of calls. -/
set_option linter.unusedSectionVars false
set_option linter.unusedSimpArgs false
namespace Spine
open JVal Graph AnimData Container
variable {F : Type} [PyRt F]

namespace Rebuild

/-! ## The attachments -/

/-- an attachment that `remove_skin` can report: the path and the name are texts or null, and are there in an attachment with an image -/
structure Shown (x : Att F) : Prop where
  sane : x.Sane
  keys : x.kind = .region ∨ x.kind = .mesh ∨ x.kind = .linked → s!!"path" ∈ Dict.keys x.attrs ∧ s!!"name" ∈ Dict.keys x.attrs

theorem shown_good {x : Att F} (h : Att.Good x) : Shown x := by
  refine ⟨h.sane, ?_⟩
  rw [h.keys]
  rintro (e | e | e) <;> rw [e]
  · simp only [AttKind.cls, regionCls]; decide
  · simp only [AttKind.cls, meshCls]; decide
  · simp only [AttKind.cls, linkedMeshCls]; decide

theorem shown_relinked {p x : Att F} (hp : Shown p) (hx : Shown x) : Shown (relinked p x) := by
  refine ⟨relinked_sane hp.sane hx.sane, fun _ => ⟨?_, ?_⟩⟩
  · rw [← Dict.get?_isSome_iff]; exact ⟨_, by rw [relinked_get?, if_pos (by simp)]⟩
  · rw [← Dict.get?_isSome_iff]; exact ⟨_, by rw [relinked_get?, if_pos (by simp)]⟩

theorem shown_setDefaults (b : Bool) {x : Att F} (h : Shown x) : Shown (x.setDefaults b) := by
  have hk : Dict.keys (x.setDefaults b).attrs = Dict.keys x.attrs := Cls.keys_setDefaults _ _ _
  refine ⟨⟨by rw [hk]; exact h.sane.nodup, ?_⟩, by rw [hk]; exact h.keys⟩
  intro k hkm v hv
  have hv : Dict.get? ((AttKind.cls x.kind).setDefaults b x.attrs) k = some v := hv
  rw [Cls.get?_setDefaults] at hv
  have hd : Dict.get? ((AttKind.cls x.kind : Cls F).defaultsFor b) k = none := by
    simp only [List.mem_cons, List.not_mem_nil, or_false] at hkm
    rcases hkm with rfl | rfl <;> cases x.kind <;> cases b <;> rfl
  cases hg : Dict.get? x.attrs k with
  | none => rw [hg] at hv; simp at hv
  | some w =>
    have := h.sane.text k hkm w hg
    rw [hg] at hv
    rcases this with rfl | ⟨t, rfl⟩
    · simp [Cls.dflt, hd] at hv; exact .inl hv.symm
    · simp at hv; exact .inr ⟨t, hv.symm⟩

theorem strAttr_shown {x : Att F} (h : x.Sane) {k : Str} (hk : k ∈ [s!!"name", s!!"path"]) (hm : k ∈ Dict.keys x.attrs) :
    ∃ o, x.strAttr k = .ok o := by
  obtain ⟨v, hv⟩ := (Dict.get?_isSome_iff _ _).2 hm
  unfold Att.strAttr
  rw [hv]
  rcases h.text k hk v hv with rfl | ⟨t, rfl⟩
  · exact ⟨none, rfl⟩
  · exact ⟨some t, rfl⟩

theorem goneOf_shown {x : Att F} (h : Shown x) : ∃ l, goneOf x = .ok l := by
  have key : x.kind = .region ∨ x.kind = .mesh ∨ x.kind = .linked → ∃ l, goneOf x = .ok l := by
    intro hx
    obtain ⟨k1, k2⟩ := h.keys hx
    obtain ⟨p, h1⟩ := strAttr_shown h.sane (k := s!!"path") (by simp) k1
    obtain ⟨m, h2⟩ := strAttr_shown h.sane (k := s!!"name") (by simp) k2
    unfold goneOf
    rcases hx with e | e | e <;> rw [e] <;> simp only [h1, h2, bind, Except.bind] <;> repeat' split
    all_goals exact ⟨_, rfl⟩
  cases hk : x.kind with
  | region => exact key (.inl hk)
  | mesh => exact key (.inr (.inl hk))
  | linked => exact key (.inr (.inr hk))
  | path | point | clipping | bbox =>
    unfold goneOf
    rw [hk]
    simp only
    cases hg : Dict.get? x.attrs s!!"path" with
    | none => exact ⟨_, rfl⟩
    | some v =>
      rcases h.sane.text _ (by simp) v hg with rfl | ⟨t, rfl⟩
      · exact ⟨_, rfl⟩
      · exact ⟨_, rfl⟩

/-- all attachments of a skin -/
def ShownIn (s : Skin F) : Prop := ∀ p ∈ s.attachments, ∀ q ∈ p.2, Shown q.2

theorem removedImages_shown {s : Skin F} (h : ShownIn s) : ∃ r, removedImages s = .ok r := by
  unfold removedImages
  obtain ⟨l, hl⟩ : ∃ l, mapE goneOf (skinAtts s) = .ok l := by
    refine GShape.mapE_isOk ?_
    intro x hx
    unfold skinAtts at hx
    obtain ⟨p, hp, hx⟩ := List.mem_flatMap.1 hx
    obtain ⟨q, hq, rfl⟩ := List.mem_map.1 hx
    exact goneOf_shown (h p hp q hq)
  rw [hl]
  exact ⟨_, rfl⟩

theorem shownIn_setDefaults (b : Bool) {s : Skin F} (h : ShownIn s) : ShownIn (s.setDefaults b) := by
  rintro ⟨k, d⟩ hp ⟨k', x⟩ hq
  rw [Skin.setDefaults_eq] at hp
  obtain ⟨d0, hd0, rfl⟩ := (mem_dmap _ _ _ _).1 hp
  obtain ⟨x0, hx0, rfl⟩ := (mem_dmap _ _ _ _).1 hq
  exact shown_setDefaults b (h _ hd0 _ hx0)

theorem shownIn_relink {gone s : Skin F} {n : Str} (hg : ShownIn gone) (hs : ShownIn s) : ShownIn (relinkSkin gone n s).2 := by
  have hp := relinkSkin_part gone n s
  intro p' hp' q' hq'
  obtain ⟨p, hpm, _, hq⟩ := hp.right hp'
  obtain ⟨q, hqm, _, hx⟩ := hq.right hq'
  rcases hx with e | ⟨_, d, x, h1, h2, e⟩
  · rw [e]; exact hs p hpm q hqm
  · rw [e]; exact shown_relinked (hg _ (Dict.mem_of_get? h1) _ (Dict.mem_of_get? h2)) (hs p hpm q hqm)

theorem shown_removeSkin (n : Str) {a : AnimData F} (h : ∀ s ∈ a.skins, ShownIn s) : ∀ s ∈ (removeSkin n a).2.skins, ShownIn s := by
  unfold removeSkin
  cases hg : getSkin a n with
  | none => exact h
  | some gone =>
    have hgone := h gone (getSkin_mem hg).1
    have hm : ∀ s ∈ (mapMut (relinkSkin gone n) a.skins).2, ShownIn s :=
      Editor.mapMut_good (G := ShownIn) _ (fun s hs => shownIn_relink hgone hs) _ h
    simp only
    split
    · exact hm
    · split
      · exact hm
      · intro s hs; exact hm s (List.mem_filter.1 hs).1

theorem shown_removeSkins (names : List Str) : ∀ {a : AnimData F}, (∀ s ∈ a.skins, ShownIn s) → ∀ s ∈ (Editor.removeSkins names a).2.skins, ShownIn s := by
  induction names with
  | nil => intro a h; exact h
  | cons n ns ih =>
    intro a h
    have h1 := shown_removeSkin n h
    rw [Editor.removeSkins]
    generalize removeSkin n a = q at h1
    obtain ⟨q1, a1⟩ := q
    cases q1 with
    | error x => exact h1
    | ok r =>
      have h2 := ih h1
      simp only at h2 ⊢
      generalize Editor.removeSkins ns a1 = q at h2
      obtain ⟨q1, a2⟩ := q
      cases q1 <;> exact h2

/-! ## The invariant -/

/-- the document part the graph is built from -/
structure DataOk (b : Bool) (a : AnimData F) : Prop where
  bones : ∀ x ∈ a.bones, Bone.Good x
  bones0 : a.bones ≠ []
  boneNames : (a.bones.map (·.name)).Nodup
  noSelf : ∀ x ∈ a.bones, x.parent.getD s!!"None" ≠ x.name
  slotNames : (a.slots.map (·.name)).Nodup
  iks : ∃ ys, All₂ (fun x y => GShape.readIk (ikCls.toJson b x) = .ok y) a.ik ys ∧ (ys.map (·.name)).Nodup
  distinct : a.Distinct
  shown : ∀ s ∈ a.skins, ShownIn s

theorem DataOk.sane {b : Bool} {a : AnimData F} (h : DataOk b a) : a.SaneAtts := by
  rintro slot key x ⟨s, hs, d, hd, hx⟩
  exact (h.shown s hs _ hd _ hx).sane

/-- the bones and iks of the graph can be read back -/
structure GraphOk (b : Bool) (g : SGraph F) : Prop where
  bones0 : nodesOf g .bone ≠ []
  bones : ∀ p ∈ nodesOf g .bone, ∃ x : Bone F, x.Good ∧ p.1 = graphId .bone x.name ∧ x.parent.getD s!!"None" ≠ x.name ∧ p.2.2 = x.toJson b
  iks : ∀ p ∈ nodesOf g .ik, ∃ y, GShape.readIk p.2.2 = .ok y ∧ p.1 = graphId .ik y.name

/-- the invariant of all histories -/
structure Solid (e : Editor F) : Prop where
  ecore : Editor.ECore e
  graph : GraphOk e.doc.version.is38 e.graph
  data : DataOk e.doc.version.is38 e.data

/-- the graph of such a document can be built -/
theorem DataOk.create {s : SpineDoc F} (h : DataOk s.version.is38 s.data) : ∃ g, SpineNodes.create s.toJson = .ok g := by
  obtain ⟨ys, hy, hn⟩ := h.iks
  obtain ⟨sh, h1, h2⟩ := GShape.read_isOk s h.bones h.bones0 h.sane (fun x hx => (hy.left hx).imp (fun _ h => h.2))
  have hsh := GShape.read_toJson s h.bones h.distinct h.sane h1
  have e : sh.iks = ys := by
    generalize s.data.ik = l at h2 hy
    generalize sh.iks = m at h2
    clear hn
    induction hy generalizing m with
    | nil => cases h2; rfl
    | cons hr _ ih =>
      cases h2 with
      | cons hr' ht =>
        rw [hr] at hr'
        injection hr' with hr'
        rw [hr', ih _ ht]
  obtain ⟨g, hg, _⟩ := GShape.create_ok h1 ⟨
    Editor.All₂.nodup_map hsh.bones h.boneNames (fun x y x' y' hx hx' e => by rw [← hx.1, ← hx'.1, e]),
    Editor.All₂.nodup_map hsh.slots h.slotNames (fun x y x' y' hx hx' e => by rw [← hx.1, ← hx'.1, e]),
    by rw [e]; exact hn, fun b hb => by
      obtain ⟨v, hv, e1, _, e3⟩ := hsh.bones.right hb
      rw [e1, e3]; exact h.noSelf v hv⟩
  exact ⟨g, hg⟩

/-- and reads back -/
theorem GraphOk.fresh {s : SpineDoc F} {g : SGraph F} (hb : ∀ x ∈ s.data.bones, Bone.Good x) (hd : s.data.Distinct) (hx : s.data.SaneAtts)
    (hg : SpineNodes.create s.toJson = .ok g) : GraphOk s.version.is38 g ∧ ∃ sh, GShape.read s.toJson = .ok sh ∧ GShape.Built sh g := by
  obtain ⟨sh, h1, h2⟩ := GShape.create_built hg
  have hsh := GShape.read_toJson s hb hd hx h1
  have hik := GShape.read_iks h1
  have n1 := h2.nodesOf .bone (by decide) (by decide)
  have n3 := h2.nodesOf .ik (by decide) (by decide)
  simp only [reduceCtorEq, if_true, if_false, List.append_nil, List.nil_append] at n1 n3
  refine ⟨⟨?_, ?_, ?_⟩, sh, h1, h2⟩
  · rw [n1]
    intro h0
    have : sh.bones = [] := by
      cases hc : sh.bones with
      | nil => rfl
      | cons x l => rw [hc] at h0; simp at h0
    cases hc : s.data.bones with
    | nil => exact hsh.someBone hc
    | cons x l => have := hsh.bones; rw [hc] at this; rw [‹sh.bones = []›] at this; cases this
  · rw [n1]
    intro p hp
    obtain ⟨q, hq, rfl⟩ := List.mem_map.1 hp
    have hq1 : q.1 ∈ sh.bones := (List.mem_zipIdx hq).2.2 ▸ List.getElem_mem _
    obtain ⟨v, hv, e1, e2, e3⟩ := hsh.bones.right hq1
    refine ⟨v, hb v hv, by simp only; rw [e1], ?_, e2⟩
    rw [← e1, ← e3]; exact h2.ok.parents _ hq1
  · rw [n3]
    intro p hp
    obtain ⟨q, hq, rfl⟩ := List.mem_map.1 hp
    have hq1 : q.1 ∈ sh.iks := (List.mem_zipIdx hq).2.2 ▸ List.getElem_mem _
    obtain ⟨v, hv, hr⟩ := hik.right hq1
    have hv' : q.1.v = ikCls.toJson s.version.is38 v := by
      unfold GShape.readIk at hr
      obtain ⟨n, _, hy⟩ := bindOk hr
      obtain ⟨m, _, hy⟩ := bindOk hy
      obtain ⟨nm, _, hy⟩ := bindOk hy
      injection hy with hy; rw [← hy]
    exact ⟨q.1, by simp only; rw [hv']; exact hr, rfl⟩

/-! ## The calls -/

open Editor

variable {e e' : Editor F}

theorem GraphOk.restrict {b : Bool} {g : SGraph F} (hc : Core b g) {S : List Str} (hl : Loose S) (h : GraphOk b g) : GraphOk b (Graph.restrict g S) := by
  have n1 := hl.nodesOf hc (t := .bone) (.inl rfl)
  have n3 := hl.nodesOf hc (t := .ik) (.inr rfl)
  exact ⟨by rw [n1]; exact h.bones0, by rw [n1]; exact h.bones, by rw [n3]; exact h.iks⟩

/-- what the data keeps when only the skins and animations are cut -/
structure Cut (a a' : AnimData F) : Prop where
  bones : a'.bones = a.bones
  slots : a'.slots.map (·.name) = a.slots.map (·.name)
  ik : a'.ik = a.ik
  distinct : a.Distinct → a'.Distinct
  shown : (∀ s ∈ a.skins, ShownIn s) → ∀ s ∈ a'.skins, ShownIn s

theorem Cut.ok {b : Bool} {a a' : AnimData F} (h : Cut a a') (hd : DataOk b a) : DataOk b a' :=
  ⟨by rw [h.bones]; exact hd.bones, by rw [h.bones]; exact hd.bones0, by rw [h.bones]; exact hd.boneNames, by rw [h.bones]; exact hd.noSelf,
    by rw [h.slots]; exact hd.slotNames, by rw [h.ik]; exact hd.iks, h.distinct hd.distinct, h.shown hd.shown⟩

theorem Cut.trans {a a' a'' : AnimData F} (h : Cut a a') (h' : Cut a' a'') : Cut a a'' :=
  ⟨h'.bones.trans h.bones, h'.slots.trans h.slots, h'.ik.trans h.ik, fun x => h'.distinct (h.distinct x), fun x => h'.shown (h.shown x)⟩

theorem cut_removeSkins (names : List Str) (a : AnimData F) : Cut a (removeSkins names a).2 := by
  have hk := removeSkins_any true names a
  exact ⟨hk.bones, by rw [hk.slots], hk.iks, hk.distinct, shown_removeSkins names⟩

theorem cut_removeSlots (ids : List Str) (orig : List (Slot F)) (a : AnimData F) : Cut a (removeSlots ids orig a).2 := by
  refine ⟨rfl, rfl, rfl, ?_, ?_⟩
  · intro h s hs
    obtain ⟨s0, hs0, rfl⟩ := List.mem_map.1 hs
    exact List.Sublist.nodup (List.Sublist.map _ List.filter_sublist) (h s0 hs0)
  · intro h s hs
    obtain ⟨s0, hs0, rfl⟩ := List.mem_map.1 hs
    intro p hp
    exact h s0 hs0 p (List.mem_filter.1 hp).1

theorem cut_removeAttachments (ids : List Str) (a : AnimData F) : Cut a (removeAttachments ids a) := by
  refine ⟨rfl, ?_, rfl, ?_, ?_⟩
  · show (a.slots.map _).map _ = _
    rw [List.map_map]
    refine List.map_congr_left ?_
    intro s _
    simp only [Function.comp]
    split
    · split <;> rfl
    · rfl
  · intro h s hs
    obtain ⟨s0, hs0, rfl⟩ := List.mem_map.1 hs
    simp only [keys_dmap]
    exact h s0 hs0
  · intro h s hs
    obtain ⟨s0, hs0, rfl⟩ := List.mem_map.1 hs
    rintro ⟨k, d⟩ hp q hq
    obtain ⟨d0, hd0, rfl⟩ := (mem_dmap _ _ _ _).1 hp
    exact h s0 hs0 _ hd0 q (List.mem_filter.1 hq).1

/-- bones read back from the graph -/
theorem bones_back {b : Bool} {g : SGraph F} (hc : Core b g) (hg : GraphOk b g) {bs : List (Bone F)}
    (h : mapE Bone.init ((nodesOf g .bone).map (·.2.2)) = .ok bs) :
    bs ≠ [] ∧ (bs.map (·.name)).Nodup ∧ ∀ x ∈ bs, x.parent.getD s!!"None" ≠ x.name := by
  rw [mapE_all₂, All₂.map_left] at h
  have h := h.mono (S := fun p y => p.1 = graphId .bone y.name ∧ y.parent.getD s!!"None" ≠ y.name) (by
    intro p y hp hy
    obtain ⟨x, hx, e1, e2, e3⟩ := hg.bones p hp
    obtain ⟨y', h1, h2⟩ := Bone.rt b x hx
    rw [e3] at hy
    rw [h1] at hy
    injection hy with hy
    subst hy
    obtain ⟨f1, f2⟩ := Bone.toJson_same h2 (Bone.good_setDefaults _ (Bone.good_init h1)) hx
    have f1 : y'.name = x.name := f1
    have f2 : y'.parent = x.parent := f2
    rw [f1, f2]; exact ⟨e1, e2⟩)
  refine ⟨?_, All₂.nodup_map h (nodesOf_ids_nodup hc.wf .bone) (fun x y x' y' hx hx' e => by rw [hx.1, hx'.1, e]), fun x hx => ?_⟩
  · intro h0
    rw [h0] at h
    cases hn : nodesOf g .bone with
    | nil => exact hg.bones0 hn
    | cons x l => rw [hn] at h; cases h
  · obtain ⟨p, _, h1⟩ := h.right hx; exact h1.2

theorem slots_back {b : Bool} {g : SGraph F} (hc : Core b g) {ss : List (Slot F)}
    (h : mapE Slot.init ((nodesOf g .slot).map (·.2.2)) = .ok ss) : (ss.map (·.name)).Nodup := by
  rw [mapE_all₂, All₂.map_left] at h
  have h := h.mono (S := fun p y => p.1 = graphId .slot y.name) (by
    intro p y hp hy
    obtain ⟨x, e1, e⟩ := hc.slots p hp
    rw [e] at hy
    cases hx : x.bone with
    | none => exact absurd hy (slot_init_none b hx)
    | some n =>
      rw [Slot.init_toJson b x (by unfold Slot.Good; rw [hx]; simp)] at hy
      injection hy with hy
      subst hy
      exact e1)
  exact All₂.nodup_map h (nodesOf_ids_nodup hc.wf .slot) (fun x y x' y' hx hx' e => by rw [hx, hx', e])

theorem iks_back {b : Bool} {g : SGraph F} (hc : Core b g) (hg : GraphOk b g) {is : List (Attrs F)}
    (h : mapE ikCls.init ((nodesOf g .ik).map (·.2.2)) = .ok is) :
    ∃ ys, All₂ (fun x y => GShape.readIk (ikCls.toJson b x) = .ok y) (is.map (ikCls.setDefaults b)) ys ∧ (ys.map (·.name)).Nodup := by
  rw [mapE_all₂, All₂.map_left] at h
  have key : ∀ p ∈ nodesOf g .ik, ∀ x, ikCls.init p.2.2 = .ok x → ∃ y, GShape.readIk (ikCls.toJson b (ikCls.setDefaults b x)) = .ok y ∧
      p.1 = graphId .ik y.name := by
    intro p hp x hx
    obtain ⟨z, hz, e⟩ := hc.iks p hp
    obtain ⟨x', h1, h2⟩ := Cls.rt (ikCls (F := F)) (by simp [leafClasses]) rfl b z hz
    rw [e, h1] at hx
    injection hx with hx
    subst hx
    obtain ⟨y, h3, h4⟩ := hg.iks p hp
    have h2 : ikCls.toJson b (ikCls.setDefaults b x') = ikCls.toJson b z := h2
    exact ⟨y, by rw [h2, ← e]; exact h3, h4⟩
  have : ∃ ys, All₂ (fun x y => GShape.readIk (ikCls.toJson b x) = .ok y) (is.map (ikCls.setDefaults b)) ys ∧
      All₂ (fun (p : Str × Int × JVal F) (y : GIk F) => p.1 = graphId .ik y.name) (nodesOf g .ik) ys := by
    generalize nodesOf g .ik = l at h key
    induction h with
    | nil => exact ⟨[], .nil, .nil⟩
    | cons hr _ ih =>
      obtain ⟨y, h1, h2⟩ := key _ (by simp) _ hr
      obtain ⟨ys, h3, h4⟩ := ih (fun p hp => key p (by simp [hp]))
      exact ⟨y :: ys, .cons h1 h3, .cons h2 h4⟩
  obtain ⟨ys, h1, h2⟩ := this
  exact ⟨ys, h1, All₂.nodup_map h2 (nodesOf_ids_nodup hc.wf .ik) (fun x y x' y' hx hx' e => by rw [hx, hx', e])⟩

theorem solid_readBack (h : Solid e) : Solid (readBack e).2 := by
  have hc := h.ecore.core
  obtain ⟨q1, q2, q3, q4⟩ := readBack_core h.ecore.bones h.ecore.iks
  refine ⟨⟨by rw [q1, q2]; exact hc, q3, q4⟩, by rw [q1, q2]; exact h.graph, ?_⟩
  rw [q2]
  have hd := h.data
  unfold readBack at q3 ⊢
  rw [hc.toJsonData] at q3 ⊢
  simp only at q3 ⊢
  cases hb : mapE Bone.init ((nodesOf e.graph .bone).map (·.2.2)) with
  | error x => exact hd
  | ok bs =>
    obtain ⟨b0, b1, b2⟩ := bones_back hc h.graph hb
    rw [hb] at q3
    simp only at q3 ⊢
    cases hs : mapE Slot.init ((nodesOf e.graph .slot).map (·.2.2)) with
    | error x =>
      rw [hs] at q3
      exact ⟨q3, b0, b1, b2, hd.slotNames, hd.iks, hd.distinct, hd.shown⟩
    | ok ss =>
      have s1 := slots_back hc hs
      rw [hs] at q3
      simp only at q3 ⊢
      cases hi : mapE ikCls.init ((nodesOf e.graph .ik).map (·.2.2)) with
      | error x =>
        rw [hi] at q3
        exact ⟨q3, b0, b1, b2, s1, hd.iks, hd.distinct, hd.shown⟩
      | ok is =>
        rw [hi] at q3
        refine ⟨q3, ?_, ?_, ?_, s1, iks_back hc h.graph hi, ?_, ?_⟩
        · show bs.map _ ≠ []
          simpa using b0
        · show ((bs.map _).map _).Nodup
          rw [List.map_map]; exact b1
        · intro x hx
          obtain ⟨y, hy, rfl⟩ := List.mem_map.1 hx
          exact b2 y hy
        · intro s hs
          obtain ⟨s0, hs0, rfl⟩ := List.mem_map.1 hs
          rw [Skin.setDefaults_eq]
          simp only [keys_dmap]
          exact hd.distinct s0 hs0
        · intro s hs
          obtain ⟨s0, hs0, rfl⟩ := List.mem_map.1 hs
          exact shownIn_setDefaults _ (hd.shown s0 hs0)

theorem Solid.withGraph (h : Solid e) {S : List Str} (hl : Loose S) : Solid { e with graph := Graph.restrict e.graph S } :=
  ⟨⟨h.ecore.core.restrict S, h.ecore.bones, h.ecore.iks⟩, h.graph.restrict h.ecore.core hl, h.data⟩

theorem Solid.withData (h : Solid e) {a : AnimData F} (hc : Cut e.data a) : Solid (e.withData a) :=
  ⟨⟨h.ecore.core, fun b hb => h.ecore.bones b (hc.bones ▸ hb), fun b hb => h.ecore.iks b (hc.ik ▸ hb)⟩, h.graph, hc.ok h.data⟩

theorem Solid.images (h : Solid e) (im : Dict (ImageRef F)) : Solid { e with images := im } :=
  ⟨⟨h.ecore.core, h.ecore.bones, h.ecore.iks⟩, h.graph, h.data⟩

/-- `clean_animation`, whatever its outcome -/
theorem solid_clean (h : Solid e) : Solid (clean e).2 := by
  unfold clean
  simp only
  split
  · exact h
  rename_i slots atts hu
  obtain ⟨r, S, hS, hl⟩ := cleanGraph_loose h.ecore.core slots atts
  rw [hS]
  cases r with
  | error x => exact h.withGraph hl
  | ok ids =>
    simp only
    have h1 := solid_readBack (h.withGraph hl)
    generalize readBack { e with graph := Graph.restrict e.graph S } = rb at h1
    obtain ⟨r1, e1⟩ := rb
    cases r1 with
    | error x => exact h1
    | ok _ =>
      simp only at h1 ⊢
      have c1 := cut_removeSlots ids e.data.slots e1.data
      generalize removeSlots ids e.data.slots e1.data = rs at c1
      obtain ⟨r2, a⟩ := rs
      cases r2 with
      | error x => exact h1.withData c1
      | ok _ =>
        have h2 := h1.withData (c1.trans (cut_removeAttachments atts _))
        obtain ⟨r3, S3, h3, l3⟩ := detach_loose h2.ecore.core
        simp only [h3]
        cases r3 with
        | error x => exact h2.withGraph l3
        | ok imgs => exact (h2.withGraph l3).images _

theorem solid_cleanUnless (safe : Bool) (h : Solid e) : Solid (cleanUnless safe e).2 := by
  unfold cleanUnless
  split
  · exact h
  · exact solid_clean h

theorem solid_eraseAnims (arg : NamesArg) (strict safe : Bool) (h : Solid e) : Solid (eraseAnims arg strict safe e).2 := by
  unfold eraseAnims
  split
  · exact h
  · rename_i names
    simp only
    have h' : Solid (e.withData { e.data with animations := (eraseRaw names e.data.animations).1 }) :=
      h.withData ⟨rfl, rfl, rfl, id, id⟩
    split
    · exact h'
    · have := solid_cleanUnless safe h'
      split
      · rename_i h; rw [h] at this; exact this
      · rename_i h; rw [h] at this; exact this

theorem solid_scale (sx sy : Num F) (h : Solid e) : Solid (scale sx sy e).2 := by
  obtain ⟨hc, _, _⟩ := scale_any sx sy h.ecore
  have hp := scale_pairs sx sy e
  rw [scale_frame] at hc ⊢
  generalize (scale sx sy e).2.data.bones = bs at hc hp
  have hd := h.data
  refine ⟨hc, h.graph, hc.bones, ?_, ?_, ?_, hd.slotNames, hd.iks, hd.distinct, hd.shown⟩
  · intro h0
    have h0 : bs = [] := h0
    rw [h0] at hp
    cases hb : e.data.bones with
    | nil => exact hd.bones0 hb
    | cons x l => rw [hb] at hp; cases hp
  · exact All₂.nodup_map hp hd.boneNames (fun x y x' y' hx hx' e => by rw [hx.1, hx'.1, e])
  · intro y hy
    obtain ⟨x, hx, f1, f2⟩ := hp.right hy
    rw [← f1, ← f2]; exact hd.noSelf x hx

/-- the graph is rebuilt after the removal of skins -/
theorem Solid.create_after (h : Solid e) (names : List Str) : ∃ g, SpineNodes.create (e.withData (removeSkins names e.data).2).toJson = .ok g :=
  DataOk.create (s := { e.doc with data := (removeSkins names e.data).2 }) ((cut_removeSkins names e.data).ok h.data)

theorem solid_fresh (h : Solid e) {g : SGraph F} (hg : SpineNodes.create e.toJson = .ok g) : Solid { e with graph := g } :=
  ⟨ecore_fresh (a := e.data) h.ecore rfl rfl hg, (GraphOk.fresh (s := e.doc) h.data.bones h.data.distinct h.data.sane hg).1, h.data⟩

theorem solid_eraseSkins (names : List Str) (safe : Bool) (h : Solid e) : Solid (eraseSkins names safe e).2 := by
  have h1 := h.withData (cut_removeSkins names e.data)
  unfold eraseSkins
  generalize removeSkins names e.data = q at h1
  obtain ⟨q1, a⟩ := q
  cases q1 with
  | error x => exact h1
  | ok r =>
    simp only at h1 ⊢
    cases hg : SpineNodes.create (e.withData a).toJson with
    | error x => exact h1
    | ok g =>
      have h2 := solid_cleanUnless safe (solid_fresh h1 hg)
      simp only
      generalize cleanUnless safe { e.withData a with graph := g } = c at h2
      obtain ⟨c1, e2⟩ := c
      cases c1 with
      | error x => exact h2
      | ok r => exact h2.images _

theorem solid_load {doc : JVal F} (hp : doc.Proper) (h : load doc = .ok e) : Solid e := by
  obtain ⟨h1, h2, h3, h4⟩ := load_data h
  obtain ⟨l1, l2, l3⟩ := load_ok h
  obtain ⟨d, v, a, rfl, _, _, _, hi, hd⟩ := SpineDoc.load_ok l1
  obtain ⟨d1, d2⟩ := AnimData.keys_init hp hi
  obtain ⟨d1, d2⟩ := AnimData.distinct_setDefaults e.doc.version.is38 d1 d2
  rw [← hd] at d1 d2
  have hs : ∀ s ∈ e.data.skins, ShownIn s := fun s hs p hp q hq => shown_good (h2 s hs p hp q hq)
  have hsane : e.data.SaneAtts := by
    rintro slot key x ⟨s, hsm, d, hd, hx⟩
    exact (hs s hsm _ hd _ hx).sane
  have hec := ecore_load h
  obtain ⟨hg, sh, r1, r2⟩ := GraphOk.fresh (s := e.doc) h1 d1 hsane l3
  have hsh := GShape.read_toJson e.doc h1 d1 hsane r1
  have ok := r2.ok
  refine ⟨hec, hg, h1, hsh.someBone, ?_, ?_, ?_, ⟨sh.iks, GShape.read_iks r1, ok.iks⟩, d1, hs⟩
  · have := hsh.bones.map_eq (f := fun x : Bone F => x.name) (g := fun y : GBone F => y.name) (fun x y h => h.1.symm)
    show (e.doc.data.bones.map _).Nodup
    rw [this]; exact ok.bones
  · intro b hb
    obtain ⟨y, hy, e1, _, e3⟩ := hsh.bones.left hb
    rw [← e1, ← e3]; exact ok.parents y hy
  · have := hsh.slots.map_eq (f := fun x : Slot F => x.name) (g := fun y : GSlot F => y.name) (fun x y h => h.1.symm)
    show (e.doc.data.slots.map _).Nodup
    rw [this]; exact ok.slots

/-- the histories of calls, whatever their outcomes, from a document that is a JSON value -/
inductive Used : Editor F → Prop
  | load {doc : JVal F} {e : Editor F} : doc.Proper → load doc = .ok e → Used e
  | run {e : Editor F} (o : Op F) : Used e → Used (o.run e).2

theorem Used.solid (h : Used e) : Solid e := by
  induction h with
  | load h1 h2 => exact solid_load h1 h2
  | run o _ ih =>
    cases o with
    | eraseSkins n s => exact solid_eraseSkins n s ih
    | eraseAnims a t s => exact solid_eraseAnims a t s ih
    | clean => exact solid_clean ih
    | scale x y => exact solid_scale x y ih

end Rebuild
end Spine
