import Verif.Lemmas.Open
/- The editors of a history can be written and loaded again. -/
set_option linter.unusedSectionVars false
set_option linter.unusedSimpArgs false
namespace Spine
open JVal Graph Container
variable {F : Type} [PyRt F]

/-! ### Loaded attributes stay well-formed -/

theorem Anim.good_removeSlots {b : Bool} {x : Anim F} (ids : List Str) (h : Anim.Good b x) : Anim.Good b (x.removeSlots ids) :=
  ⟨h.ik, h.drawOrder, h.bones, fun p hp => h.slots p (List.mem_filter.1 hp).1, h.events, h.transform, h.path, h.deform⟩

theorem Anim.good_removeDeformSlots {b : Bool} {x : Anim F} (ids : List Str) (h : Anim.Good b x) : Anim.Good b (x.removeDeformSlots ids) := by
  refine ⟨h.ik, h.drawOrder, h.bones, h.slots, h.events, h.transform, h.path, ?_⟩
  intro p hp q hq r hr
  obtain ⟨p0, hp0, rfl⟩ := List.mem_map.1 hp
  exact h.deform p0 hp0 q (List.mem_filter.1 hq).1 r hr

theorem Anim.good_removeDeformAtts {b : Bool} {x : Anim F} (ids : List Str) (skin : Str) (h : Anim.Good b x) :
    Anim.Good b (x.removeDeformAtts ids skin) := by
  unfold Anim.removeDeformAtts
  split
  · exact h
  · rename_i d hd
    refine ⟨h.ik, h.drawOrder, h.bones, h.slots, h.events, h.transform, h.path, ?_⟩
    intro p hp q hq r hr
    rcases mem_set hp with hp | rfl
    · exact h.deform p hp q hq r hr
    · obtain ⟨q0, hq0, rfl⟩ := List.mem_map.1 hq
      exact h.deform (skin, d) (Dict.mem_of_get? hd) q0 hq0 r (List.mem_filter.1 hr).1

theorem Anim.good_removeDrawOrder {b : Bool} {x : Anim F} (ids : List Str) (orig : List (Slot F)) (h : Anim.Good b x) :
    Anim.Good b (x.removeDrawOrder ids orig).2 := by
  refine ⟨h.ik, ?_, h.bones, h.slots, h.events, h.transform, h.path, h.deform⟩
  refine Editor.mapMut_good (G := DrawTl.Good b) (Anim.cleanDraw ids orig) ?_ x.drawOrder h.drawOrder
  intro t ht
  unfold Anim.cleanDraw
  split <;> exact ht

theorem All₂.refl {α : Type} {R : α → α → Prop} (h : ∀ x, R x x) (l : List α) : All₂ R l l := by
  induction l with
  | nil => exact .nil
  | cons x l ih => exact .cons (h x) ih

theorem AnimData.slotScale_of {x y : AnimData F} (hb : x.bones = y.bones) (hs : x.slots = y.slots) {n : Str} {sc : F}
    (h : slotScale x (getSlot x n) = .ok sc) : slotScale y (getSlot y n) = .ok sc := by
  have e : getSlot y n = getSlot x n := by unfold getSlot; rw [hs]
  rw [e, ← slotScale_same (x := x) (hb ▸ All₂.refl (fun _ => ⟨rfl, rfl⟩) _)]
  exact h

namespace Editor
variable {e e' : Editor F} {ids atts slots L A B I : List Str} {g0 g1 g2 g3 : SGraph F} {bs : List (Bone F)} {ss : List (Slot F)}
  {is : List (Attrs F)} {an : Dict (Anim F)}

theorem good_foldl {b : Bool} (atts : List Str) (l : List Str) (an : Dict (Anim F)) (h : ∀ p ∈ an, Anim.Good b p.2) :
    ∀ p ∈ l.foldl (fun an n => dmap (Anim.removeDeformAtts atts n) an) an, Anim.Good b p.2 := by
  induction l generalizing an with
  | nil => exact h
  | cons n l ih => exact ih _ (good_dmap (G := Anim.Good b) (fun _ => Anim.good_removeDeformAtts atts n) h)

theorem CleanRun.good {b : Bool} (hs : Sync e) (hec : ECore e') (hr : CleanRun e e' ids atts slots L A B I g0 g1 g2 g3 bs ss is an)
    (h : AnimData.Good b e.data) : AnimData.Good b e'.data := by
  obtain ⟨e1, e2, e3⟩ := hr.result_events hs
  refine ⟨hec.bones, ?_, by rw [e1]; exact h.events, hec.iks, by rw [e2]; exact h.transform, by rw [e3]; exact h.path, ?_⟩
  · rw [hr.result_skins hs]
    intro s hs'
    obtain ⟨s0, hs0, rfl⟩ := List.mem_map.1 hs'
    intro p hp q hq
    obtain ⟨p0, hp0, rfl⟩ := List.mem_map.1 hp
    exact h.skins s0 hs0 p0 (List.mem_filter.1 hp0).1 q (List.mem_filter.1 hq).1
  · rw [hr.result_animations hs]
    refine good_foldl _ _ _ ?_
    intro q hq
    obtain ⟨p, hp, _, h1⟩ := (hr.result_an hs).right hq
    have := Anim.good_removeDrawOrder ids e.data.slots (Anim.good_removeDeformSlots ids (Anim.good_removeSlots ids (h.animations p hp)))
    rw [h1] at this
    exact this

/-! ### The invariant -/

/-- the bone node of a bone: its id, and a written bone with the same name and parent -/
def BoneNode (b : Bool) (p : Str × Int × JVal F) (x : Bone F) : Prop :=
  p.1 = graphId .bone x.name ∧ ∃ y : Bone F, Bone.Good y ∧ y.name = x.name ∧ y.parent = x.parent ∧ p.2.2 = y.toJson b

/-- the ik node of an ik -/
def IkNode (b : Bool) (p : Str × Int × JVal F) (x : Attrs F) : Prop :=
  p.2.2 = ikCls.toJson b x ∧ ∃ y, GShape.readIk p.2.2 = .ok y ∧ p.1 = graphId .ik y.name

/-- an editor whose output can be loaded again, provided it has a slot -/
structure Open (e : Editor F) : Prop where
  sync : Sync e
  good : AnimData.Good e.doc.version.is38 e.data
  slotBone : ∀ s ∈ e.data.slots, s.bone ≠ none
  bones0 : e.data.bones ≠ []
  ver : ∃ v, Dict.get? e.doc.skeleton s!!"spine" = some (.str v) ∧ Version.mk? F v = .ok e.doc.version
  gbones : All₂ (BoneNode e.doc.version.is38) (nodesOf e.graph .bone) e.data.bones
  noSelf : ∀ b ∈ e.data.bones, b.parent.getD s!!"None" ≠ b.name
  giks : All₂ (IkNode e.doc.version.is38) (nodesOf e.graph .ik) e.data.ik
  refs : RefsOk e.doc
  noPath : e.data.NoPathLink

theorem All₂.nodup_map {α β γ δ : Type} {R : α → β → Prop} {f : α → γ} {g : β → δ} {l : List α} {m : List β} (h : All₂ R l m)
    (hn : (l.map f).Nodup) (hfg : ∀ x y x' y', R x y → R x' y' → g y = g y' → f x = f x') : (m.map g).Nodup := by
  induction h with
  | nil => exact .nil
  | @cons x y l m hr ht ih =>
    rw [List.map_cons, List.nodup_cons] at hn ⊢
    refine ⟨?_, ih hn.2⟩
    intro hm
    obtain ⟨y', hy', e⟩ := List.mem_map.1 hm
    obtain ⟨x', hx', hr'⟩ := ht.right hy'
    exact hn.1 (List.mem_map.2 ⟨x', hx', hfg _ _ _ _ hr' hr e⟩)

theorem Open.create (h : Open e) : ∃ g, SpineNodes.create e.toJson = .ok g := by
  have hik : ∀ a ∈ e.doc.data.ik, ∃ y, GShape.readIk (ikCls.toJson e.doc.version.is38 a) = .ok y := by
    intro a ha
    obtain ⟨p, _, h1, y, h2, _⟩ := h.giks.right ha
    exact ⟨y, h1 ▸ h2⟩
  obtain ⟨sh, h1, h2⟩ := GShape.read_isOk e.doc h.good.bones h.bones0 h.sync.sane hik
  have hsh := GShape.read_toJson e.doc h.good.bones h.sync.distinct h.sync.sane h1
  have wf := h.sync.core.wf
  have nb : (e.data.bones.map (·.name)).Nodup := by
    refine All₂.nodup_map h.gbones (nodesOf_ids_nodup wf .bone) ?_
    intro x y x' y' hx hx' e; rw [hx.1, hx'.1, e]
  have ns : (e.data.slots.map (·.name)).Nodup := by
    refine All₂.nodup_map h.sync.slots (nodesOf_ids_nodup wf .slot) ?_
    intro x y x' y' hx hx' e; rw [hx.1, hx'.1, e]
  suffices ho : GShape.Ok sh by
    obtain ⟨g, hg, _⟩ := GShape.create_ok h1 ho
    exact ⟨g, hg⟩
  refine ⟨?_, ?_, ?_, ?_⟩
  · exact All₂.nodup_map hsh.bones nb (fun x y x' y' hx hx' e => by rw [← hx.1, ← hx'.1, e])
  · exact All₂.nodup_map hsh.slots ns (fun x y x' y' hx hx' e => by rw [← hx.1, ← hx'.1, e])
  · have hc : All₂ (fun (p : Str × Int × JVal F) (y : GIk F) => p.1 = graphId .ik y.name) (nodesOf e.graph .ik) sh.iks := by
      refine All₂.comp h.giks h2 ?_
      rintro p a y _ _ ⟨e1, y', h1, h2⟩ h3
      rw [e1, h3] at h1
      injection h1 with h1; rw [h1]; exact h2
    refine All₂.nodup_map hc (nodesOf_ids_nodup wf .ik) ?_
    intro x y x' y' hx hx' e; rw [hx, hx', e]
  · intro b hb
    obtain ⟨v, hv, e1, _, e3⟩ := hsh.bones.right hb
    rw [e1, e3]; exact h.noSelf v hv

theorem Open.reload (h : Open e) (hs : e.data.slots ≠ []) : ∃ e', load e.toJson = .ok e' ∧ e'.toJson = e.toJson := by
  obtain ⟨g, hg⟩ := h.create
  obtain ⟨im, hi⟩ := (imagesReferences_ok e.doc).2 h.refs
  obtain ⟨e', h1, h2, _⟩ := Editor.reload h.good h.slotBone h.bones0 hs h.ver hi hg
  exact ⟨e', h1, h2⟩

/-- an editor whose graph has just been built from its data -/
theorem open_fresh (hs : Sync e) (hg : SpineNodes.create e.toJson = .ok e.graph) (good : AnimData.Good e.doc.version.is38 e.data)
    (hsb : ∀ s ∈ e.data.slots, s.bone ≠ none)
    (hv : ∃ v, Dict.get? e.doc.skeleton s!!"spine" = some (.str v) ∧ Version.mk? F v = .ok e.doc.version)
    (refs : RefsOk e.doc) (np : e.data.NoPathLink) : Open e := by
  have hg' : SpineNodes.create e.doc.toJson = .ok e.graph := hg
  obtain ⟨sh, h1, h2⟩ := GShape.create_built hg'
  have hsh := GShape.read_toJson e.doc good.bones hs.distinct hs.sane h1
  have hik := GShape.read_iks h1
  have n1 := h2.nodesOf .bone (by decide) (by decide)
  have n3 := h2.nodesOf .ik (by decide) (by decide)
  simp only [reduceCtorEq, if_true, if_false, List.append_nil, List.nil_append] at n1 n3
  refine ⟨hs, good, hsb, hsh.someBone, hv, ?_, ?_, ?_, refs, np⟩
  · rw [n1]
    have := hsh.bones
    have hgb : ∀ b ∈ e.doc.data.bones, Bone.Good b := good.bones
    show All₂ _ _ e.doc.data.bones
    generalize e.doc.data.bones = m at this hgb
    generalize sh.bones = l at this
    have : ∀ k, All₂ (BoneNode e.doc.version.is38) ((l.zipIdx k).map (fun p => (graphId .bone p.1.name, ((p.2 : Int), p.1.v)))) m := by
      induction this with
      | nil => intro k; exact .nil
      | cons hr _ ih =>
        intro k
        rw [List.zipIdx_cons, List.map_cons]
        refine .cons ⟨by rw [hr.1], _, hgb _ (by simp), rfl, rfl, hr.2.1⟩ (ih (fun b hb => hgb b (by simp [hb])) (k + 1))
    exact this 0
  · intro b hb
    obtain ⟨g, hgm, e1, _, e3⟩ := hsh.bones.left hb
    rw [← e1, ← e3]; exact h2.ok.parents g hgm
  · rw [n3]
    show All₂ _ _ e.doc.data.ik
    generalize e.doc.data.ik = m at hik
    generalize sh.iks = l at hik
    have : ∀ k, All₂ (IkNode e.doc.version.is38) ((l.zipIdx k).map (fun p => (graphId .ik p.1.name, ((p.2 : Int), p.1.v)))) m := by
      induction hik with
      | nil => intro k; exact .nil
      | @cons a y _ _ hr _ ih =>
        intro k
        rw [List.zipIdx_cons, List.map_cons]
        have hv : y.v = ikCls.toJson e.doc.version.is38 a := by
          unfold GShape.readIk at hr
          obtain ⟨n, _, hy⟩ := bindOk hr
          obtain ⟨q, _, hy⟩ := bindOk hy
          obtain ⟨nm, _, hy⟩ := bindOk hy
          injection hy with hy; subst hy; rfl
        refine .cons ⟨hv, y, ?_, rfl⟩ (ih (k + 1))
        show GShape.readIk y.v = .ok y
        rw [hv]; exact hr
    exact this 0

/-! ### Loading -/

theorem open_load {doc : JVal F} (hp : doc.Proper) (h : load doc = .ok e) (hn : e.data.NamesOk)
    (hsb : ∀ s ∈ e.data.slots, s.bone ≠ none)
    (ht : e.doc.version.is38 = true ∨ ∀ p ∈ e.data.animations, ∀ t ∈ p.2.drawOrder, t.time ≠ .null)
    (np : e.data.NoPathLink) : Open e := by
  obtain ⟨h1, h2, h3⟩ := load_good h ht
  exact open_fresh (sync_load hp h hn) (load_ok h).2.2 h1 hsb h3 ((imagesReferences_ok _).1 ⟨_, (load_ok h).2.1⟩) np

/-! ### clean_animation -/

theorem getSlot_filter (l : List (Slot F)) {ids : List Str} {n : Str} (hn : n ∉ ids) :
    (l.filter (fun s => s.name ∉ ids)).find? (fun s => s.name == n) = l.find? (fun s => s.name == n) := by
  induction l with
  | nil => rfl
  | cons x l ih =>
    by_cases hx : x.name = n
    · have : x.name ∉ ids := hx ▸ hn
      simp [List.filter_cons, this, hx, hn]
    · simp only [List.filter_cons]
      split
      · simp only [List.find?_cons, beq_eq_false_iff_ne.2 hx, ih]
      · simp only [List.find?_cons, beq_eq_false_iff_ne.2 hx, ih]

theorem open_clean {r : List Str × List Str} (h : Open e) (hc : clean e = (.ok r, e')) : Open e' := by
  have hs := h.sync
  have hs' := sync_clean hs hc
  obtain ⟨ids, atts⟩ := r
  obtain ⟨slots, L, A, B, I, g0, g1, g2, g3, bs, ss, is, an, hr⟩ := clean_run hs.core hc
  obtain ⟨S, hl, hg, _, _⟩ := clean_any hs.ecore
  rw [hc] at hg
  have hg : e'.graph = restrict e.graph S := hg
  obtain ⟨rb1, rb2⟩ := hr.result_bones
  have l1 : Loose (namedIds F slots atts ++ L) := by
    intro x hx
    rcases List.mem_append.1 hx with hx | hx
    · unfold namedIds at hx
      rcases List.mem_append.1 hx with hx | hx
      · obtain ⟨n, _, rfl⟩ := List.mem_map.1 hx; exact ⟨.slot, n, by decide, by decide, rfl⟩
      · obtain ⟨n, _, rfl⟩ := List.mem_map.1 hx; exact ⟨.attachment, n, by decide, by decide, rfl⟩
    · obtain ⟨n, rfl, _⟩ := hr.L_ids hs hx; exact ⟨.slot, n, by decide, by decide, rfl⟩
  have nb : ∀ t, t = .bone ∨ t = .ik → nodesOf g1 t = nodesOf e.graph t := by
    intro t ht
    rw [hr.nodes1]; exact l1.nodesOf hs.core ht
  have nb' : ∀ t, t = .bone ∨ t = .ik → nodesOf e'.graph t = nodesOf e.graph t := by
    intro t ht
    rw [hg]; exact hl.nodesOf hs.core ht
  -- the bones read back
  have hbones : All₂ (fun (p : Str × Int × JVal F) (x : Bone F) => ∃ y, Bone.init p.2.2 = .ok y ∧ x = y.setDefaults e.doc.version.is38)
      (nodesOf e.graph .bone) e'.data.bones := by
    have := (mapE_all₂ _ _ _).1 hr.hbs
    rw [All₂.map_left, nb _ (.inl rfl)] at this
    rw [rb1, All₂.map_right]
    exact this.mono (fun p y _ h => ⟨y, h, rfl⟩)
  have hpair : All₂ (fun x y : Bone F => x.name = y.name ∧ x.parent = y.parent) e.data.bones e'.data.bones := by
    have hgb := h.gbones
    clear nb nb' rb1
    generalize e'.data.bones = m at hbones
    generalize e.data.bones = l at hgb
    generalize nodesOf e.graph .bone = k at hbones hgb
    induction hgb generalizing m with
    | nil => cases hbones; exact .nil
    | cons hr _ ih =>
      cases hbones with
      | cons hb ht =>
        obtain ⟨y, hy, rfl⟩ := hb
        obtain ⟨_, z, hz, e1, e2, e3⟩ := hr
        rw [e3] at hy
        obtain ⟨y', hy', hj⟩ := Bone.rt e.doc.version.is38 z hz
        rw [hy] at hy'
        injection hy' with hy'; subst hy'
        obtain ⟨f1, f2⟩ := Bone.toJson_same hj (Bone.good_setDefaults _ (Bone.good_init hy)) hz
        exact .cons ⟨by rw [f1, e1], by rw [f2, e2]⟩ (ih _ ht)
  have hiks : All₂ (fun (x y : Attrs F) => ikCls.toJson e.doc.version.is38 y = ikCls.toJson e.doc.version.is38 x) e.data.ik e'.data.ik := by
    have hgi := h.giks
    have hk := h.good.ik
    have h0 := (mapE_all₂ _ _ _).1 hr.his
    rw [All₂.map_left, nb _ (.inr rfl)] at h0
    rw [rb2, All₂.map_right]
    clear nb nb' rb2
    have hk' : ∀ a ∈ e.data.ik, Dict.keys a = (ikCls (F := F)).attrs := hk
    clear hk
    generalize e.data.ik = l at hgi hk'
    generalize nodesOf e.graph .ik = k at h0 hgi
    have key : ∀ {m : List (Attrs F)}, All₂ (fun (p : Str × Int × JVal F) y => ikCls.init p.2.2 = .ok y) k m →
        All₂ (fun x y => ikCls.toJson e.doc.version.is38 (ikCls.setDefaults e.doc.version.is38 y) = ikCls.toJson e.doc.version.is38 x) l m := by
      clear h0
      induction hgi with
      | nil => intro m h0; cases h0; exact .nil
      | @cons _ a _ _ hr _ ih =>
        intro m h0
        cases h0 with
        | cons hb ht =>
          obtain ⟨e1, _⟩ := hr
          rw [e1] at hb
          obtain ⟨y', hy', hj⟩ := Cls.rt (ikCls (F := F)) (by simp [leafClasses]) rfl e.doc.version.is38 a (hk' a (by simp))
          rw [hb] at hy'
          injection hy' with hy'; subst hy'
          exact .cons hj (ih (fun a ha => hk' a (by simp [ha])) ht)
    exact key h0
  refine ⟨hs', ?_, ?_, ?_, ?_, ?_, ?_, ?_, ?_, ?_⟩
  · rw [hr.version]; exact hr.good hs hs'.ecore h.good
  · rw [hr.result_slots hs]
    intro s hm
    exact h.slotBone s (List.mem_filter.1 hm).1
  · intro h0
    rw [h0] at hpair
    cases hb : e.data.bones with
    | nil => exact h.bones0 hb
    | cons x l => rw [hb] at hpair; cases hpair
  · rw [hr.version, hr.skeleton]; exact h.ver
  · rw [hr.version, nb' _ (.inl rfl)]
    refine All₂.comp h.gbones hpair ?_
    rintro p x y _ _ ⟨e1, z, hz, e2, e3, e4⟩ ⟨f1, f2⟩
    exact ⟨by rw [e1, f1], z, hz, by rw [e2, f1], by rw [e3, f2], e4⟩
  · intro y hy
    obtain ⟨x, hx, f1, f2⟩ := hpair.right hy
    rw [← f1, ← f2]; exact h.noSelf x hx
  · rw [hr.version, nb' _ (.inr rfl)]
    refine All₂.comp h.giks hiks ?_
    rintro p x y _ _ ⟨e1, e2⟩ f
    exact ⟨by rw [e1, f], e2⟩
  · intro k hk
    have hk : k ∈ e'.data.skins := hk
    rw [hr.result_skins hs] at hk
    obtain ⟨k0, hk0, rfl⟩ := List.mem_map.1 hk
    obtain ⟨r1, r2⟩ := h.refs k0 hk0
    refine ⟨by rw [hr.version]; exact r1, ?_⟩
    intro p hp
    obtain ⟨p0, hp0, rfl⟩ := List.mem_map.1 hp
    obtain ⟨hp0, hn⟩ := List.mem_filter.1 hp0
    obtain ⟨⟨sc, hsc⟩, r3⟩ := r2 p0 hp0
    refine ⟨⟨sc, ?_⟩, ?_⟩
    · have e1 : AnimData.getSlot e'.doc.data p0.1 = AnimData.getSlot e.doc.data p0.1 := by
        have := hr.result_slots hs
        unfold AnimData.getSlot
        show e'.data.slots.find? _ = _
        rw [this]
        exact getSlot_filter _ (by simpa using hn)
      show AnimData.slotScale e'.doc.data (AnimData.getSlot e'.doc.data p0.1) = .ok sc
      rw [e1, ← AnimData.slotScale_same (x := e.doc.data) (y := e'.doc.data) hpair]
      exact hsc
    · intro q hq
      rw [hr.skeleton]
      exact r3 q (List.mem_filter.1 hq).1
  · have hcut : ∀ {s : Skin F} {slot key : Str} {x : Att F}, (cutSkin ids atts s).Has slot key x → s.Has slot key x := by
      rintro s slot key x ⟨d, hd, hx⟩
      obtain ⟨p0, hp0, e1⟩ := List.mem_map.1 hd
      simp only [Prod.mk.injEq] at e1
      obtain ⟨rfl, rfl⟩ := e1
      exact ⟨p0.2, (List.mem_filter.1 hp0).1, (List.mem_filter.1 hx).1⟩
    intro s hsm t htm slot key x p hx hl hp
    rw [hr.result_skins hs] at hsm htm
    obtain ⟨s0, hs0, rfl⟩ := List.mem_map.1 hsm
    obtain ⟨t0, ht0, rfl⟩ := List.mem_map.1 htm
    exact h.noPath s0 hs0 t0 ht0 slot key x p (hcut hx) hl (hcut hp)

theorem open_cleanUnless {safe : Bool} {r : List Str × List Str} (h : Open e) (hc : cleanUnless safe e = (.ok r, e')) : Open e' := by
  unfold cleanUnless at hc
  split at hc
  · simp only [Prod.mk.injEq] at hc; rw [← hc.2]; exact h
  · exact open_clean h hc

/-! ### erase_animations -/

theorem open_filterAnims (h : Open e) (p : Str × Anim F → Bool) : Open (e.withData { e.data with animations := e.data.animations.filter p }) :=
  ⟨sync_filterAnims h.sync p, ⟨h.good.bones, h.good.skins, h.good.events, h.good.ik, h.good.transform, h.good.path,
    fun q hq => h.good.animations q (List.mem_filter.1 hq).1⟩, h.slotBone, h.bones0, h.ver, h.gbones, h.noSelf, h.giks, (by
      intro k hk
      refine ⟨(h.refs k hk).1, ?_⟩
      intro q hq
      obtain ⟨⟨sc, h1⟩, h2⟩ := (h.refs k hk).2 q hq
      refine ⟨⟨sc, ?_⟩, h2⟩
      refine AnimData.slotScale_of (x := e.data) ?_ ?_ h1 <;> rfl), h.noPath⟩

theorem open_eraseAnims {arg : NamesArg} {strict safe : Bool} {r : JVal F × List Str × List Str} (hs : Open e)
    (h : eraseAnims arg strict safe e = (.ok r, e')) : Open e' := by
  unfold eraseAnims at h
  split at h
  · simp at h
  · simp only at h
    split at h
    · simp at h
    · rw [eraseRaw_fst] at h
      split at h
      · simp at h
      · rename_i r' e1 h1
        simp only [Prod.mk.injEq] at h
        rw [← h.2]
        exact open_cleanUnless (open_filterAnims hs _) h1

theorem open_eraseAnims_safe {arg : NamesArg} {strict : Bool} (hs : Open e) : Open (eraseAnims arg strict true e).2 := by
  unfold eraseAnims
  split
  · exact hs
  · simp only
    rw [eraseRaw_fst]
    have := open_filterAnims hs (fun p => decide (p.1 ∉ ‹List Str›))
    split
    · exact this
    · split
      · rename_i x e1 h1
        simp [cleanUnless] at h1
      · rename_i x e1 h1
        simp only [cleanUnless, if_true, Prod.mk.injEq] at h1
        rw [← h1.2]; exact this

/-! ### scale_animation -/

theorem Bone.scale_same (sx sy : Num F) (x : Bone F) : (x.scale sx sy).2.name = x.name ∧ (x.scale sx sy).2.parent = x.parent := by
  unfold Bone.scale
  split
  · exact ⟨rfl, rfl⟩
  · exact ⟨rfl, rfl⟩
  · split
    · exact ⟨rfl, rfl⟩
    · split <;> exact ⟨rfl, rfl⟩

theorem mapMut_rel {α : Type} {R : α → α → Prop} (hr : ∀ x, R x x) {f : α → Res α Unit} (hf : ∀ x, R x (f x).2) (l : List α) :
    All₂ R l (mapMut f l).2 := by
  induction l with
  | nil => exact .nil
  | cons x l ih =>
    unfold mapMut
    have := hf x
    split
    · rename_i e' x' h; rw [h] at this; exact .cons this (All₂.refl hr l)
    · rename_i e' x' h; rw [h] at this; exact .cons this ih

theorem onFirst_rel {R : Bone F → Bone F → Prop} (hr : ∀ x, R x x) {f : Bone F → Res (Bone F) Unit} (hf : ∀ x, R x (f x).2) (n : Str)
    (l : List (Bone F)) : All₂ R l (onFirst n f l).2 := by
  induction l with
  | nil => exact .nil
  | cons x l ih =>
    rw [onFirst]
    split
    · exact .cons (hf x) (All₂.refl hr l)
    · exact .cons (hr x) ih

theorem scale_pairs (sx sy : Num F) (e : Editor F) :
    All₂ (fun x y : Bone F => x.name = y.name ∧ x.parent = y.parent) e.data.bones (scale sx sy e).2.data.bones := by
  have hr : ∀ x : Bone F, x.name = x.name ∧ x.parent = x.parent := fun _ => ⟨rfl, rfl⟩
  have hf : ∀ x : Bone F, x.name = (x.scale sx sy).2.name ∧ x.parent = (x.scale sx sy).2.parent :=
    fun x => ⟨(Bone.scale_same sx sy x).1.symm, (Bone.scale_same sx sy x).2.symm⟩
  have h1 := mapMut_rel (R := fun x y : Bone F => x.name = y.name ∧ x.parent = y.parent) hr
    (f := fun b => if noInherit b then b.scale sx sy else (.ok (), b)) (by
      intro x
      split
      · exact hf x
      · exact hr x) e.data.bones
  unfold scale
  split
  · rename_i x bs hb; rw [hb] at h1; exact h1
  · rename_i x bs hb
    rw [hb] at h1
    exact All₂.comp h1 (onFirst_rel (R := fun x y : Bone F => x.name = y.name ∧ x.parent = y.parent) hr hf s!!"root" bs)
      (fun x y z _ _ h h' => ⟨h.1.trans h'.1, h.2.trans h'.2⟩)

theorem open_scale (sx sy : Num F) (h : Open e) : Open (scale sx sy e).2 := by
  have hs := sync_scale sx sy h.sync
  have hp := scale_pairs sx sy e
  rw [scale_frame] at hs ⊢
  generalize (scale sx sy e).2.data.bones = bs at hs hp
  refine ⟨hs, ⟨hs.ecore.bones, h.good.skins, h.good.events, h.good.ik, h.good.transform, h.good.path, h.good.animations⟩, h.slotBone, ?_,
    h.ver, ?_, ?_, h.giks, ?_, h.noPath⟩
  · intro h0
    have h0 : bs = [] := h0
    rw [h0] at hp
    cases hb : e.data.bones with
    | nil => exact h.bones0 hb
    | cons x l => rw [hb] at hp; cases hp
  · refine All₂.comp h.gbones hp ?_
    rintro p x y _ _ ⟨e1, z, hz, e2, e3, e4⟩ ⟨f1, f2⟩
    exact ⟨by rw [e1, f1], z, hz, by rw [e2, f1], by rw [e3, f2], e4⟩
  · intro y hy
    obtain ⟨x, hx, f1, f2⟩ := hp.right hy
    rw [← f1, ← f2]; exact h.noSelf x hx
  · intro k hk
    refine ⟨(h.refs k hk).1, ?_⟩
    intro q hq
    obtain ⟨⟨sc, h1⟩, h2⟩ := (h.refs k hk).2 q hq
    refine ⟨⟨sc, ?_⟩, h2⟩
    rw [← AnimData.slotScale_same (x := e.data) hp]
    exact h1

/-! ### erase_skins -/

theorem imageOf_isOk {key : Str} {x : Att F} (hs : x.Sane) (hp : s!!"path" ∈ Dict.keys x.attrs) (hn : s!!"name" ∈ Dict.keys x.attrs) :
    ∃ i, imageOf key x = .ok i := by
  obtain ⟨v, hv⟩ := (Dict.get?_isSome_iff _ _).2 hp
  obtain ⟨w, hw⟩ := (Dict.get?_isSome_iff _ _).2 hn
  have tv := hs.text _ (by simp) _ hv
  have tw := hs.text _ (by simp) _ hw
  unfold imageOf Att.strAttr
  rw [hv, hw]
  rcases tv with rfl | ⟨t, rfl⟩ <;> rcases tw with rfl | ⟨u, rfl⟩
  all_goals
    simp only [optStr, bind, Except.bind]
    repeat' split
    all_goals first | exact ⟨_, rfl⟩ | (simp_all; done)

/-- what the removal of skins keeps -/
structure Kept (s : SpineDoc F) (a : AnimData F) : Prop where
  good : AnimData.Good s.version.is38 a
  refs : RefsOk { s with data := a }
  noPath : a.NoPathLink

theorem kept_removeSkin {s : SpineDoc F} {a a' : AnimData F} {n : Str} {r : List (Option Str) × List Str} (hk : Kept s a)
    (h : AnimData.removeSkin n a = (.ok r, a')) : Kept s a' := by
  have hnp := AnimData.removeSkin_noPath h hk.noPath
  obtain ⟨gone, sk, h1, h2, h3, rfl⟩ := AnimData.removeSkin_ok h
  obtain ⟨hg, hgn⟩ := AnimData.getSkin_mem h1
  have ok := hk.good
  have hgood : ∀ s' ∈ sk, Skin.Good s' := by
    intro s' hs' p hp q hq
    obtain ⟨s0, hs0, rs⟩ := h2.right hs'
    obtain ⟨x, hx, cx⟩ := AnimData.SkinRel.has rs (slot := p.1) (key := q.1) (x' := q.2) ⟨p.2, hp, hq⟩
    have gx : ∀ {s0 : Skin F}, s0 ∈ a.skins → ∀ {x}, s0.Has p.1 q.1 x → Att.Good x := by
      rintro s0 hs0 x ⟨d, hd, hx⟩
      exact ok.skins s0 hs0 _ hd _ hx
    rcases cx with e | ⟨hl, p1, hp1, e⟩
    · rw [e]; exact gx hs0 hx
    · rw [e]
      exact AnimData.good_relinked (gx hg hp1) (hk.noPath s0 hs0 gone hg _ _ _ _ hx (hgn ▸ hl) hp1) (gx hs0 hx)
  refine ⟨⟨ok.bones, fun s' hs' => hgood s' (List.mem_filter.1 hs').1, ok.events, ok.ik, ok.transform, ok.path, ?_⟩, ?_, hnp⟩
  · refine good_dmap (G := Anim.Good s.version.is38) ?_ ok.animations
    intro x hx
    exact ⟨hx.ik, hx.drawOrder, hx.bones, hx.slots, hx.events, hx.transform, hx.path, fun p hp => hx.deform p (List.mem_filter.1 hp).1⟩
  · intro s' hs'
    have hs' := (List.mem_filter.1 hs').1
    obtain ⟨s0, hs0, rs⟩ := h2.right hs'
    obtain ⟨r1, r2⟩ := hk.refs s0 hs0
    refine ⟨r1, ?_⟩
    intro p hp
    obtain ⟨p0, hp0, e0⟩ : ∃ p0 ∈ s0.attachments, p.1 = p0.1 := by
      rcases rs.2 with ⟨_, rfl⟩ | ⟨_, hall⟩
      · exact ⟨p, hp, rfl⟩
      · obtain ⟨p0, hp0, e0, _⟩ := hall.right hp
        exact ⟨p0, hp0, e0⟩
    obtain ⟨⟨sc, hsc⟩, _⟩ := r2 p0 hp0
    refine ⟨⟨sc, ?_⟩, ?_⟩
    · rw [e0]
      refine AnimData.slotScale_of (x := a) ?_ ?_ hsc <;> rfl
    · intro q hq
      obtain ⟨x, hx, cx⟩ := AnimData.SkinRel.has rs (slot := p.1) (key := q.1) (x' := q.2) ⟨p.2, hp, hq⟩
      obtain ⟨d0, hd0, hx0⟩ := hx
      have ax := (r2 _ hd0).2 _ hx0
      rcases cx with e | ⟨hl, p1, hp1, e⟩
      · rw [e]; exact ax
      · right
        rcases ax with hpath | ⟨_, hf⟩
        · rw [hl.1] at hpath; cases hpath
        refine ⟨?_, hf⟩
        rw [e]
        obtain ⟨d1, hd1, hx1⟩ := hp1
        have hs1 := AnimData.relinked_sane (ok.skins gone hg _ hd1 _ hx1).sane (ok.skins s0 hs0 _ hd0 _ hx0).sane
        refine imageOf_isOk hs1 ?_ ?_
        · rw [← Dict.get?_isSome_iff]; exact ⟨_, by rw [AnimData.relinked_get?, if_pos (by simp)]⟩
        · rw [← Dict.get?_isSome_iff]; exact ⟨_, by rw [AnimData.relinked_get?, if_pos (by simp)]⟩

theorem kept_removeSkins {s : SpineDoc F} {names : List Str} : ∀ {a a' : AnimData F} {r : List (Option Str) × List Str}, Kept s a →
    removeSkins names a = (.ok r, a') → Kept s a' := by
  induction names with
  | nil => intro a a' r hk h; simp only [removeSkins, Prod.mk.injEq] at h; rw [← h.2]; exact hk
  | cons n ns ih =>
    intro a a' r hk h
    obtain ⟨i, t, is, rs, a1, h1, h2, _⟩ := removeSkins_cons h
    exact ih (kept_removeSkin hk h1) h2

theorem open_eraseSkins {names : List Str} {safe : Bool} {r : List Str × List Str} {gone : List (Option Str)} (hs : Open e)
    (h : eraseSkins names safe e = (.ok (r, gone), e')) : Open e' := by
  have hs' := sync_eraseSkins hs.sync h
  obtain ⟨imgs, regions, a, g, e1, h1, h2, h3, h4, rfl⟩ := eraseSkins_ok h
  have s1 := sync_removeSkins hs.sync h1 h2
  have hk : Kept e.doc a := kept_removeSkins ⟨hs.good, hs.refs, hs.noPath⟩ h1
  have hb := (removeSkins_kept e.doc.version.is38 h1)
  have o1 : Open { e.withData a with graph := g } := by
    refine open_fresh s1 h2 hk.good ?_ hs.ver hk.refs hk.noPath
    intro s hm
    have hm : s ∈ a.slots := hm
    rw [hb.slots] at hm
    exact hs.slotBone s hm
  have o2 := open_cleanUnless o1 h4
  exact ⟨hs', o2.good, o2.slotBone, o2.bones0, o2.ver, o2.gbones, o2.noSelf, o2.giks, o2.refs, o2.noPath⟩

/-! ### Histories -/

/-- the histories of `Ran`, from a document that C22 applies to and in which no linked mesh is linked to a path -/
inductive RanOpen : Editor F → Prop
  | load {doc : JVal F} {e : Editor F} : doc.Proper → load doc = .ok e → e.data.NamesOk → (∀ s ∈ e.data.slots, s.bone ≠ none) →
      (e.doc.version.is38 = true ∨ ∀ p ∈ e.data.animations, ∀ t ∈ p.2.drawOrder, t.time ≠ .null) → e.data.NoPathLink → RanOpen e
  | run {e e' : Editor F} (o : Op F) : RanOpen e → o.run e = (.ok (), e') → RanOpen e'
  | scaled {e : Editor F} (sx sy : Num F) : RanOpen e → RanOpen (scale sx sy e).2
  | failedErase {e : Editor F} (arg : NamesArg) (strict : Bool) : RanOpen e → RanOpen (eraseAnims arg strict true e).2

theorem RanOpen.open (h : RanOpen e) : Open e := by
  induction h with
  | load h1 h2 h3 h4 h5 h6 => exact open_load h1 h2 h3 h4 h5 h6
  | run o _ h ih =>
    cases o with
    | eraseSkins n s => obtain ⟨r, gone, h⟩ := run_eraseSkins h; exact open_eraseSkins ih h
    | eraseAnims arg t s => obtain ⟨r, h⟩ := run_eraseAnims h; exact open_eraseAnims ih h
    | clean => obtain ⟨r, h⟩ := run_clean h; exact open_clean ih h
    | scale sx sy =>
      have : (scale sx sy _).2 = _ := congrArg (·.2) h
      simp only at this
      rw [← this]; exact open_scale sx sy ih
  | scaled sx sy _ ih => exact open_scale sx sy ih
  | failedErase arg strict _ ih => exact open_eraseAnims_safe ih

theorem RanOpen.ran (h : RanOpen e) : Ran e := by
  induction h with
  | load h1 h2 h3 _ _ _ => exact .load h1 h2 h3
  | run o _ h ih => exact .run o ih h
  | scaled sx sy _ ih => exact .scaled sx sy ih
  | failedErase arg strict _ ih => exact .failedErase arg strict ih

end Editor
end Spine
