import Verif.Lemmas.Fine
/- Every call of the editor keeps its document without repeated keys, and keeps a property of its floats. -/
set_option linter.unusedSectionVars false
set_option linter.unusedSimpArgs false
namespace Spine
open JVal Graph Container JsonSpec
variable {F : Type} [PyRt F] {q : F → Prop}

/-! ### Removing a skin -/

theorem Att.ok_relinked {p x : Att F} (hp : p.Ok q) (hx : x.Ok q) : (AnimData.relinked p x).Ok q :=
  FD.set (FD.set (FD.set (FD.set hp _ (fine_val hx _)) _ (fine_val hx _)) _ (fine_val hx _)) _ (fine_val hx _)

theorem Skin.ok_relink {gone s : Skin F} (n : Str) (hg : gone.Ok q) (hs : s.Ok q) : (AnimData.relinkSkin gone n s).2.Ok q := by
  unfold AnimData.relinkSkin
  split
  · exact hs
  · refine FD.mapMutD (P := FD (Att.Ok q)) hs (fun slot e he => FD.mapMutD (P := Att.Ok q) he (fun key x hx => ?_))
    unfold AnimData.relinkAtt
    split
    · split
      · exact hx
      · rename_i e' h1
        split
        · exact hx
        · rename_i p h2
          exact Att.ok_relinked ((hg.get? h1).get? h2) hx
    · exact hx

namespace AnimData

theorem ok_removeSkin (n : Str) {a : AnimData F} (h : a.Ok q) : (removeSkin n a).2.Ok q := by
  unfold removeSkin
  split
  · exact h
  · rename_i gone hg
    have hs := Editor.mapMut_good (G := Skin.Ok q) (relinkSkin gone n) (fun s hs => Skin.ok_relink n (h.skins _ (List.mem_of_find?_eq_some hg)) hs) a.skins h.skins
    have h' : ({ a with skins := (mapMut (relinkSkin gone n) a.skins).2 } : AnimData F).Ok q := { h with skins := hs }
    simp only
    split
    · exact h'
    · split
      · exact h'
      · refine { h' with skins := ?_, animations := ?_ }
        · exact fun s hm => hs s (List.mem_filter.1 hm).1
        · exact h.animations.dmap (fun x hx => (⟨hx.ik, hx.drawOrder, hx.bones, hx.slots, hx.events, hx.transform, hx.path,
            hx.deform.del n⟩ : Anim.Ok q (dropDeform n x)))

end AnimData

/-! ### Scaling -/

theorem fine_pyMul (hq : ∀ f, q f) {v w : JVal F} {n : Num F} (hv : Fine q v) (h : pyMul v n = .ok w) : Fine q w := by
  cases v <;> cases n <;> simp only [pyMul] at h
  all_goals first
    | (exfalso; cases h; done)
    | (injection h with h; subst h; first
        | exact fine_int _
        | exact fine_str _
        | exact fine_flt.2 (hq _)
        | (refine fine_list.2 (fun x hx => ?_)
           simp only [List.mem_flatten, List.mem_replicate] at hx
           obtain ⟨l, ⟨_, rfl⟩, hx⟩ := hx
           exact fine_list.1 hv x hx))
    | (split at h
       · injection h with h; subst h; exact fine_flt.2 (hq _)
       · cases h)

theorem Bone.ok_scale (hq : ∀ f, q f) (sx sy : Num F) (b : Bone F) (hb : b.Ok q) : (b.scale sx sy).2.Ok q := by
  have key : ∀ (d : Attrs F) (k : Str) (v : JVal F), FA q d → s!!"name" ∉ Dict.keys d → s!!"parent" ∉ Dict.keys d →
      k ≠ s!!"name" → k ≠ s!!"parent" → Fine q v →
      FA q (Dict.set d k v) ∧ s!!"name" ∉ Dict.keys (Dict.set d k v) ∧ s!!"parent" ∉ Dict.keys (Dict.set d k v) := by
    intro d k v h1 h2 h3 h4 h5 h6
    refine ⟨h1.set k h6, ?_, ?_⟩
    · intro hm
      obtain ⟨p, hp, e⟩ := List.mem_map.1 hm
      rcases FD.mem_set hp with hp | rfl
      · exact h2 (e ▸ List.mem_map_of_mem hp)
      · exact h4 e
    · intro hm
      obtain ⟨p, hp, e⟩ := List.mem_map.1 hm
      rcases FD.mem_set hp with hp | rfl
      · exact h3 (e ▸ List.mem_map_of_mem hp)
      · exact h5 e
  unfold Bone.scale
  split
  · exact hb
  · exact hb
  · split
    · exact hb
    · rename_i x hx
      obtain ⟨k1, k2, k3⟩ := key b.rest s!!"scaleX" x hb.rest hb.name hb.parent (by decide) (by decide) (fine_pyMul hq (fine_val hb.rest _) hx)
      simp only
      split
      · exact ⟨k1, k2, k3⟩
      · rename_i y hy
        obtain ⟨m1, m2, m3⟩ := key _ s!!"scaleY" y k1 k2 k3 (by decide) (by decide) (fine_pyMul hq (fine_val hb.rest _) hy)
        exact ⟨m1, m2, m3⟩

namespace Editor

/-- data of the nodes of a graph -/
def GFine (q : F → Prop) (g : SGraph F) : Prop := ∀ t ∈ [NType.bone, .slot, .ik], ∀ p ∈ nodesOf g t, Fine q p.2.2

theorem GFine.restrict {g : SGraph F} (h : GFine q g) (S : List Str) : GFine q (restrict g S) := by
  intro t ht p hp
  rw [nodesOf_restrict] at hp
  exact h t ht p (List.mem_filter.1 hp).1

theorem gfine_fresh {s : SpineDoc F} {g : SGraph F} (hs : s.Ok q) (h : SpineNodes.create s.toJson = .ok g) : GFine q g := by
  obtain ⟨e1, e2, e3⟩ := nodesOf_fresh h
  intro t ht p hp
  simp only [List.mem_cons, List.not_mem_nil, or_false] at ht
  rcases ht with rfl | rfl | rfl
  · have : p.2.2 ∈ (nodesOf g .bone).map (·.2.2) := List.mem_map_of_mem hp
    rw [e1] at this
    exact fl_map hs.data.bones (fun _ => Bone.fine_toJson _) _ this
  · obtain ⟨x, hx, _, e⟩ := e2.left hp
    rw [e]
    exact Slot.fine_toJson _ (hs.data.slots x hx)
  · have : p.2.2 ∈ (nodesOf g .ik).map (·.2.2) := List.mem_map_of_mem hp
    rw [e3] at this
    exact fl_map hs.data.ik (fun _ => Cls.fine_toJson _ _) _ this

structure EFine (q : F → Prop) (e : Editor F) : Prop where
  core : ECore e
  doc : e.doc.Ok q
  graph : GFine q e.graph

theorem efine_load (h1 : q PyRt.fone) {doc : JVal F} {e : Editor F} (hd : Fine q doc) (h : load doc = .ok e) : EFine q e := by
  have hs := SpineDoc.ok_load h1 hd (load_ok h).1
  exact ⟨ecore_load h, hs, gfine_fresh hs (load_ok h).2.2⟩

theorem readBack_fine (h1 : q PyRt.fone) {b : Bool} {e : Editor F} (hc : Core b e.graph) (hg : GFine q e.graph) (hd : e.doc.Ok q) :
    (readBack e).2.doc.Ok q := by
  unfold readBack
  rw [hc.toJsonData]
  simp only
  have sub : ∀ t ∈ [NType.bone, .slot, .ik], ∀ x ∈ (nodesOf e.graph t).map (·.2.2), Fine q x := by
    intro t ht x hx
    obtain ⟨p, hp, rfl⟩ := List.mem_map.1 hx
    exact hg t ht p hp
  split
  · exact hd
  · rename_i bs hbs
    have d1 : ∀ y ∈ bs, y.Ok q := fl_mapE (sub .bone (by simp)) (fun _ _ => Bone.ok_init) hbs
    split
    · exact ⟨hd.skeleton, { hd.data with bones := d1 }⟩
    · rename_i ss hss
      have d2 : ∀ y ∈ ss, y.Ok q := fl_mapE (sub .slot (by simp)) (fun _ _ => Slot.ok_init) hss
      split
      · exact ⟨hd.skeleton, { hd.data with bones := d1, slots := d2 }⟩
      · rename_i is his
        have d3 : ∀ y ∈ is, FA q y := fl_init (by simp [leafClasses]) (sub .ik (by simp)) his
        exact ⟨hd.skeleton, AnimData.ok_setDefaults h1 _ { hd.data with bones := d1, slots := d2, ik := d3 }⟩

theorem ok_removeSlots (ids : List Str) (orig : List (Slot F)) {a : AnimData F} (h : a.Ok q) : (removeSlots ids orig a).2.Ok q := by
  have a1 : (slotsInSkins ids a).Ok q := { h with skins := fl_map h.skins (fun s (hs : s.Ok q) => FD.filter hs _) }
  have a2 : (slotsInAnims ids (slotsInSkins ids a)).Ok q :=
    { a1 with animations := h.animations.dmap (fun x hx =>
        (⟨hx.ik, hx.drawOrder, hx.bones, hx.slots.filter _, hx.events, hx.transform, hx.path, hx.deform.dmap (fun _ h => h.filter _)⟩ :
          Anim.Ok q ((x.removeSlots ids).removeDeformSlots ids))) }
  refine { a2 with animations := FD.mapMutD a2.animations (fun k x hx => ?_) }
  refine { hx with drawOrder := ?_ }
  refine mapMut_good (G := DrawTl.Ok q) _ (fun t ht => ?_) x.drawOrder hx.drawOrder
  unfold Anim.cleanDraw
  split
  · exact ht
  · exact ht

theorem ok_removeDeformAtts (ids : List Str) (n : Str) {x : Anim F} (h : x.Ok q) : (Anim.removeDeformAtts ids n x).Ok q := by
  unfold Anim.removeDeformAtts
  split
  · exact h
  · rename_i d hd
    exact { h with deform := h.deform.set _ ((h.deform.get? hd).dmap (fun _ h => h.filter _)) }

theorem ok_removeAttachments (ids : List Str) {a : AnimData F} (h : a.Ok q) : (removeAttachments ids a).Ok q := by
  have a1 : (attsInSkins ids a).Ok q := by
    refine { h with skins := ?_, animations := ?_ }
    · exact fl_map h.skins (fun s (hs : s.Ok q) => FD.dmap (P := FD (Att.Ok q)) hs (fun _ h => h.filter _))
    · show FD (Anim.Ok q) (a.skins.foldl _ a.animations)
      have : ∀ (l : List (Skin F)) (d : Dict (Anim F)), FD (Anim.Ok q) d →
          FD (Anim.Ok q) (l.foldl (fun an s => dmap (Anim.removeDeformAtts ids s.name) an) d) := by
        intro l
        induction l with
        | nil => intro d hd; exact hd
        | cons s l ih => intro d hd; exact ih _ (hd.dmap (fun _ => ok_removeDeformAtts ids s.name))
      exact this _ _ h.animations
  refine { a1 with slots := fl_map h.slots (fun s (hs : s.Ok q) => ?_) }
  split
  · split
    · exact ⟨hs.dark, hs.blend⟩
    · exact hs
  · exact hs

theorem clean_fine (h1 : q PyRt.fone) {e : Editor F} (h : EFine q e) : EFine q (clean e).2 := by
  obtain ⟨S0, _, hg0, hcore, _⟩ := clean_any h.core
  refine ⟨hcore, ?_, by rw [hg0]; exact h.graph.restrict S0⟩
  unfold clean
  simp only
  split
  · exact h.doc
  rename_i slots atts hu
  obtain ⟨r, S, hS, _⟩ := cleanGraph_loose h.core.core slots atts
  rw [hS]
  cases r with
  | error x => exact h.doc
  | ok ids =>
    simp only
    have hrb := readBack_fine h1 (e := { e with graph := restrict e.graph S }) (h.core.core.restrict S) (h.graph.restrict S) h.doc
    generalize readBack { e with graph := restrict e.graph S } = rb at hrb
    obtain ⟨r1, e1⟩ := rb
    cases r1 with
    | error x => exact hrb
    | ok _ =>
      simp only at hrb ⊢
      have hrs := ok_removeSlots ids e.data.slots hrb.data
      change (removeSlots ids e.data.slots e1.data).2.Ok q at hrs
      generalize removeSlots ids e.data.slots e1.data = rs at hrs
      obtain ⟨r2, a⟩ := rs
      cases r2 with
      | error x => exact ⟨hrb.skeleton, hrs⟩
      | ok _ =>
        simp only at hrs ⊢
        have hat := ok_removeAttachments atts hrs
        split
        · exact ⟨hrb.skeleton, hat⟩
        · exact ⟨hrb.skeleton, hat⟩

theorem cleanUnless_fine (h1 : q PyRt.fone) (safe : Bool) {e : Editor F} (h : EFine q e) : EFine q (cleanUnless safe e).2 := by
  unfold cleanUnless
  split
  · exact h
  · exact clean_fine h1 h

theorem fd_eraseRaw (l : List Str) {d : Dict (Anim F)} (h : FD (Anim.Ok q) d) : FD (Anim.Ok q) (eraseRaw l d).1 := by
  induction l generalizing d with
  | nil => exact h
  | cons n l ih =>
    unfold eraseRaw
    split
    · exact ih (h.del n)
    · exact ih h

theorem eraseAnims_fine (h1 : q PyRt.fone) (arg : NamesArg) (strict safe : Bool) {e : Editor F} (h : EFine q e) :
    EFine q (eraseAnims arg strict safe e).2 := by
  unfold eraseAnims
  split
  · exact h
  · rename_i names
    simp only
    have h' : EFine q (e.withData { e.data with animations := (eraseRaw names e.data.animations).1 }) :=
      ⟨⟨h.core.core, h.core.bones, h.core.iks⟩, ⟨h.doc.skeleton, { h.doc.data with animations := fd_eraseRaw names h.doc.data.animations }⟩, h.graph⟩
    split
    · exact h'
    · have := cleanUnless_fine h1 safe h'
      split
      · rename_i hq; rw [hq] at this; exact this
      · rename_i hq; rw [hq] at this; exact this

theorem ok_removeSkins (l : List Str) {a : AnimData F} (h : a.Ok q) : (removeSkins l a).2.Ok q := by
  induction l generalizing a with
  | nil => exact h
  | cons n l ih =>
    unfold removeSkins
    have h1 := AnimData.ok_removeSkin n h
    split
    · rename_i hx; rw [hx] at h1; exact h1
    · rename_i i r a' hx
      rw [hx] at h1
      have h' := ih h1
      split
      · rename_i hy; rw [hy] at h'; exact h'
      · rename_i hy; rw [hy] at h'; exact h'

theorem eraseSkins_fine (h1 : q PyRt.fone) (names : List Str) (safe : Bool) {e : Editor F} (h : EFine q e) :
    EFine q (eraseSkins names safe e).2 := by
  refine ⟨eraseSkins_any names safe h.core, ?_, ?_⟩ <;>
  · unfold eraseSkins
    have hb := removeSkins_bones names e.data
    have hs := ok_removeSkins names h.doc.data
    change (removeSkins names e.data).2.Ok q at hs
    split
    · rename_i x a ha
      rw [ha] at hs
      first | exact ⟨h.doc.skeleton, hs⟩ | exact h.graph
    · rename_i imgs regions a ha
      rw [ha] at hb hs
      simp only
      have hd : (e.withData a).doc.Ok q := ⟨h.doc.skeleton, hs⟩
      split
      · first | exact hd | exact h.graph
      · rename_i g hg
        have h' : EFine q { e.withData a with graph := g } := ⟨ecore_fresh h.core hb.1 hb.2.1 hg, hd, gfine_fresh hd hg⟩
        have := cleanUnless_fine h1 safe h'
        split
        · rename_i hq; rw [hq] at this; first | exact this.doc | exact this.graph
        · rename_i hq; rw [hq] at this; first | exact this.doc | exact this.graph

theorem scale_fine (hq : ∀ f, q f) (sx sy : Num F) {e : Editor F} (h : EFine q e) : EFine q (scale sx sy e).2 := by
  obtain ⟨hc, hg, _⟩ := scale_any sx sy h.core
  refine ⟨hc, ?_, by rw [hg]; exact h.graph⟩
  have m1 := mapMut_good (fun b => if noInherit b then b.scale sx sy else (.ok (), b)) (G := Bone.Ok q)
    (by intro b hb; split
        · exact Bone.ok_scale hq sx sy b hb
        · exact hb) e.data.bones h.doc.data.bones
  have m2 : ∀ (n : Str) (l : List (Bone F)), (∀ b ∈ l, b.Ok q) → ∀ b ∈ (onFirst n (Bone.scale sx sy) l).2, b.Ok q := by
    intro n l
    induction l with
    | nil => intro _ b hb; cases hb
    | cons x l ih =>
      intro hl
      unfold onFirst
      split
      · intro b hb
        rcases List.mem_cons.1 hb with rfl | hb
        · exact Bone.ok_scale hq sx sy x (hl x (by simp))
        · exact hl b (by simp [hb])
      · intro b hb
        rcases List.mem_cons.1 hb with rfl | hb
        · exact hl b (by simp)
        · exact ih (fun b hb => hl b (by simp [hb])) b hb
  unfold scale
  split
  · rename_i x bs hx; rw [hx] at m1
    exact ⟨h.doc.skeleton, { h.doc.data with bones := m1 }⟩
  · rename_i x bs hx; rw [hx] at m1
    exact ⟨h.doc.skeleton, { h.doc.data with bones := m2 _ _ m1 }⟩

/-- the call multiplies no number -/
def Op.NoScale : Op F → Prop
  | .scale _ _ => False
  | _ => True

theorem run_fine (h1 : q PyRt.fone) (o : Op F) (ho : o.NoScale ∨ ∀ f, q f) {e : Editor F} (h : EFine q e) : EFine q (o.run e).2 := by
  cases o with
  | eraseSkins n s => exact eraseSkins_fine h1 n s h
  | eraseAnims a t s => exact eraseAnims_fine h1 a t s h
  | clean => exact clean_fine h1 h
  | scale x y =>
    rcases ho with ho | ho
    · exact ho.elim
    · exact scale_fine ho x y h

theorem EFine.toJson {e : Editor F} (h : EFine q e) : Fine q e.toJson := SpineDoc.fine_toJson h.doc

/-! ### Images -/

theorem nodup_foldE {α β : Type} {f : Dict β → α → Except Err (Dict β)} (hf : ∀ d x e, (Dict.keys d).Nodup → f d x = .ok e → (Dict.keys e).Nodup)
    (l : List α) {d e : Dict β} (hd : (Dict.keys d).Nodup) (h : Graph.foldE f d l = .ok e) : (Dict.keys e).Nodup := by
  induction l generalizing d with
  | nil => injection h with h; subst h; exact hd
  | cons x l ih =>
    simp only [Graph.foldE] at h
    split at h
    · rename_i d' hd'
      exact ih (hf _ _ _ hd hd') h
    · cases h

theorem nodup_images {s : SpineDoc F} {im : Dict (ImageRef F)} (h : imagesReferences s = .ok im) : (Dict.keys im).Nodup := by
  unfold imagesReferences at h
  refine nodup_foldE ?_ _ (d := []) (by simp [Dict.keys]) h
  intro d x e hd hx
  unfold refSkin at hx
  split at hx
  · refine nodup_foldE ?_ _ hd hx
    intro d x e hd hx
    unfold refSlot at hx
    split at hx
    · cases hx
    · refine nodup_foldE ?_ _ hd hx
      intro d x e hd hx
      unfold refStep at hx
      split at hx
      · injection hx with hx; subst hx; exact hd
      · obtain ⟨_, _, hx⟩ := bindOk hx
        obtain ⟨_, _, hx⟩ := bindOk hx
        injection hx with hx; subst hx
        exact Dict.nodup_keys_set hd _ _
  · cases hx

theorem readBack_keeps_images (e : Editor F) : (readBack e).2.images = e.images := by
  unfold readBack
  split
  · rfl
  · split
    · rfl
    · simp only
      split
      · rfl
      · split <;> rfl

theorem clean_images (e : Editor F) : (clean e).2.images.Sublist e.images := by
  unfold clean
  simp only
  split
  · exact List.Sublist.refl _
  · split
    · exact List.Sublist.refl _
    · rename_i ids g hg
      have hi := readBack_keeps_images { e with graph := g }
      change _ = e.images at hi
      split
      · rename_i hr; rw [hr] at hi; simp only at hi ⊢; rw [hi]; exact List.Sublist.refl _
      · rename_i e1 hr
        rw [hr] at hi
        simp only at hi
        split
        · show e1.images.Sublist _; rw [hi]; exact List.Sublist.refl _
        · split
          · show e1.images.Sublist _; rw [hi]; exact List.Sublist.refl _
          · show (e1.images.filter _).Sublist _; rw [hi]; exact List.filter_sublist

theorem cleanUnless_images (safe : Bool) (e : Editor F) : (cleanUnless safe e).2.images.Sublist e.images := by
  unfold cleanUnless
  split
  · exact List.Sublist.refl _
  · exact clean_images e

/-- no call adds an image -/
theorem run_images (o : Op F) (e : Editor F) : (o.run e).2.images.Sublist e.images := by
  cases o with
  | eraseSkins n s =>
    show (eraseSkins n s e).2.images.Sublist _
    unfold eraseSkins
    split
    · exact List.Sublist.refl _
    · rename_i a _
      simp only
      split
      · exact List.Sublist.refl _
      · rename_i g _
        have h := cleanUnless_images s { e.withData a with graph := g }
        change (cleanUnless s { e.withData a with graph := g }).2.images.Sublist e.images at h
        split
        · rename_i hq; rw [hq] at h; exact h
        · rename_i hq; rw [hq] at h; exact List.filter_sublist.trans h
  | eraseAnims a t s =>
    show (eraseAnims a t s e).2.images.Sublist _
    unfold eraseAnims
    split
    · exact List.Sublist.refl _
    · rename_i names
      simp only
      split
      · exact List.Sublist.refl _
      · have h := cleanUnless_images s (e.withData { e.data with animations := (eraseRaw names e.data.animations).1 })
        split
        · rename_i hq; rw [hq] at h; exact h
        · rename_i hq; rw [hq] at h; exact h
  | clean => exact clean_images e
  | scale x y =>
    show (scale x y e).2.images.Sublist _
    unfold scale
    split <;> exact List.Sublist.refl _

/-- an editor opened on a document as Python has it, without repeated keys, after any history of calls, whatever their outcomes -/
inductive Edited : Editor F → Prop
  | load {doc e} : doc.Proper → load doc = .ok e → Edited e
  | run {e} (o : Op F) : Edited e → Edited (o.run e).2

theorem floatsAre_true (v : JVal F) : FloatsAre (fun _ => True) v := by
  match v with
  | .null => exact .null
  | .bool b => exact .bool b
  | .int b => exact .int b
  | .flt b => exact .flt trivial
  | .str b => exact .str b
  | .list l => exact .list (fun x _ => floatsAre_true x)
  | .dict d => exact .dict (fun x _ => floatsAre_true x.2)
termination_by sizeOf v
decreasing_by
  all_goals simp_wf
  · have := List.sizeOf_lt_of_mem ‹_ ∈ _›; omega
  · obtain ⟨k, w⟩ := x
    have := List.sizeOf_lt_of_mem ‹_ ∈ _›
    simp at this ⊢; omega

theorem Edited.fine {e : Editor F} (h : Edited e) : EFine (fun _ => True) e := by
  induction h with
  | load hd h => exact efine_load trivial ⟨hd, floatsAre_true _⟩ h
  | run o _ ih => exact run_fine trivial o (.inr fun _ => trivial) ih

/-- the document of an editor has no repeated keys -/
theorem Edited.proper {e : Editor F} (h : Edited e) : e.toJson.Proper := h.fine.toJson.1

theorem Edited.images {e : Editor F} (h : Edited e) : (Dict.keys e.images).Nodup := by
  induction h with
  | load _ h => exact nodup_images (load_ok h).2.1
  | run o _ ih => exact ih.sublist ((run_images o _).map _)

/-- an editor opened on a document whose floats have a property, after calls that multiply no number -/
inductive Unscaled (q : F → Prop) : Editor F → Prop
  | load {doc e} : doc.Proper → FloatsAre q doc → load doc = .ok e → Unscaled q e
  | run {e} (o : Op F) : o.NoScale → Unscaled q e → Unscaled q (o.run e).2

theorem Unscaled.fine (h1 : q PyRt.fone) {e : Editor F} (h : Unscaled q e) : EFine q e := by
  induction h with
  | load hd hf h => exact efine_load h1 ⟨hd, hf⟩ h
  | run o ho _ ih => exact run_fine h1 o (.inl ho) ih

end Editor
end Spine
