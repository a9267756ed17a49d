import Verif.Spec.SetOrder
import Verif.Lemmas.Weak
/-
The order in which sets are iterated changes nothing but the order of the lists returned.
-/
set_option linter.unusedSectionVars false
namespace Spine
open Graph Container
variable {F : Type} [PyRt F]

namespace Editor
/-- with the orders of the runtime these are the calls of `Verif.Model.Editor` -/
theorem cleanBy_rt (e : Editor F) : cleanBy (Orders.rt F) e = clean e := by rfl

theorem eraseSkinsBy_rt (n : List Str) (s : Bool) (e : Editor F) : eraseSkinsBy (Orders.rt F) n s e = eraseSkins n s e := by rfl

theorem eraseAnimsBy_rt (a : NamesArg) (t s : Bool) (e : Editor F) : eraseAnimsBy (Orders.rt F) a t s e = eraseAnims a t s e := by rfl
end Editor

theorem Orders.rt_ok : (Orders.rt F).Ok := fun l => ⟨PyRt.setOrder_perm l, PyRt.setOrder_perm l, PyRt.setOrder_perm l⟩

/-! ### Only membership counts -/

section Congr
variable {ids ids' : List Str} (h : ids.Perm ids')
include h

theorem adjustLoop_perm (a b : List Str) (d : Dict Int) : DrawOrder.adjustLoop ids a b d = DrawOrder.adjustLoop ids' a b d := by
  induction d with
  | nil => rfl
  | cons p d ih =>
    obtain ⟨n, o⟩ := p
    simp only [DrawOrder.adjustLoop, ih, h.mem_iff]

theorem removeOffsets_perm {α : Type} (name : α → Str) (orig : List α) (l : List (Str × Int)) :
    DrawOrder.removeOffsets name ids orig l = DrawOrder.removeOffsets name ids' orig l := by
  simp only [DrawOrder.removeOffsets, DrawOrder.adjust, adjustLoop_perm h, h.mem_iff]

theorem removeSlots_perm (orig : List (Slot F)) (a : AnimData F) : Editor.removeSlots ids orig a = Editor.removeSlots ids' orig a := by
  have h1 : (Anim.cleanDraw ids orig : DrawTl F → _) = Anim.cleanDraw ids' orig := by
    funext t; simp only [Anim.cleanDraw, removeOffsets_perm h]
  have h2 : (fun (_ : Str) (x : Anim F) => Anim.removeDrawOrder ids orig x) = (fun _ x => Anim.removeDrawOrder ids' orig x) := by
    funext _ x; simp only [Anim.removeDrawOrder, h1]
  simp only [Editor.removeSlots, Editor.drawOrderRefs, h2, Editor.slotsInAnims, Editor.slotsInSkins, Anim.removeSlots, Anim.removeDeformSlots, h.mem_iff]

end Congr

namespace Editor
variable {e : Editor F} {slots atts : List Str}

theorem perm_set {f g : List Str → List Str} (hf : ∀ l, (f l).Perm l) (hg : ∀ l, (g l).Perm l) (l : List Str) : (f l).Perm (g l) :=
  (hf l).trans (hg l).symm

/-- the graph part: the same graph, and the same names in some order -/
theorem cleanGraphBy_total {o : Orders} (ho : o.Ok) (hs : Weak e) (hu : AnimData.unused e.data = .ok (slots, atts)) :
    ∃ L g, cleanGraphBy o slots atts e.graph = (.ok (o.all (slots ++ L).eraseDups), g) ∧
      ∀ o' : Orders, o'.Ok → cleanGraphBy o' slots atts e.graph = (.ok (o'.all (slots ++ L).eraseDups), g) := by
  have key : ∀ o : Orders, o.Ok → cleanGraphBy o slots atts e.graph = match removeLeafsOfType (baseId .slot) .slot
      (restrict e.graph (slots.map (graphId .slot) ++ atts.map (graphId .attachment))) with
      | (.error x, g) => (.error x, g)
      | (.ok leafs, g) => (.ok (o.all (slots ++ leafs).eraseDups), g) := by
    intro o ho
    have m1 : ∀ x, x ∈ o.slots slots.eraseDups ↔ x ∈ slots := fun x => by rw [(ho _).1.mem_iff, List.mem_eraseDups]
    have m2 : ∀ x, x ∈ o.atts atts.eraseDups ↔ x ∈ atts := fun x => by rw [(ho _).2.1.mem_iff, List.mem_eraseDups]
    have h1 := removeNamed_ok (F := F) .slot (o.slots slots.eraseDups) hs.core.wf
      (nodup_map_graphId _ ((ho _).1.nodup_iff.2 (nodup_eraseDups _)))
      (fun x hx => (hs.hasSlot x).2 (unused_slots hu x ((m1 _).1 hx)))
    have h2 := removeNamed_ok (F := F) .attachment (o.atts atts.eraseDups)
      (wf_restrict hs.core.wf ((o.slots slots.eraseDups).map (graphId .slot))) (nodup_map_graphId _ ((ho _).2.1.nodup_iff.2 (nodup_eraseDups _))) (by
        intro k hk
        obtain ⟨slot, x, hx⟩ := unused_atts hu k ((m2 _).1 hk)
        rw [hasNode_restrict]
        refine ⟨(wf_edge_nodes hs.core.wf (hs.edge_of slot k x hx)).2, ?_⟩
        intro hm
        obtain ⟨m, _, e1⟩ := List.mem_map.1 hm
        have := (graphId_inj e1).1
        cases this)
    rw [restrict_restrict] at h2
    unfold cleanGraphBy
    rw [h1]
    simp only [h2]
    rw [restrict_congr e.graph (R := slots.map (graphId .slot) ++ atts.map (graphId .attachment)) (by
      intro x
      simp only [List.mem_append, List.mem_map, m1, m2])]
    rfl
  obtain ⟨L, hL1, _, _⟩ := removeLeafs_spec (baseId .slot) NType.slot
    (g := restrict e.graph (slots.map (graphId .slot) ++ atts.map (graphId .attachment))) (wf_restrict hs.core.wf _)
  rw [hL1] at key
  exact ⟨_, _, key o ho, key⟩

/-- names returned up to their order -/
def Agree (x y : Except Err (List Str × List Str)) : Prop := match x, y with
  | .ok a, .ok b => a.1.Perm b.1 ∧ a.2 = b.2
  | .error a, .error b => a = b
  | _, _ => False

theorem Agree.refl (x : Except Err (List Str × List Str)) : Agree x x := by
  cases x with
  | error a => exact rfl
  | ok a => exact ⟨.refl _, rfl⟩

theorem cleanBy_agree {o o' : Orders} (ho : o.Ok) (ho' : o'.Ok) (hs : Weak e) :
    Agree (cleanBy o e).1 (cleanBy o' e).1 ∧ (cleanBy o e).2 = (cleanBy o' e).2 := by
  unfold cleanBy
  cases hu : AnimData.unused e.data with
  | error x => exact ⟨rfl, rfl⟩
  | ok q =>
    obtain ⟨slots, atts⟩ := q
    obtain ⟨L, g, h1, h2⟩ := cleanGraphBy_total ho hs hu
    simp only [h1, h2 o' ho']
    have hp : (o.all (slots ++ L).eraseDups).Perm (o'.all (slots ++ L).eraseDups) := ((ho _).2.2).trans ((ho' _).2.2).symm
    unfold cleanRest
    generalize readBack { e with graph := g } = q
    obtain ⟨q1, q2⟩ := q
    cases q1 with
    | error x => exact ⟨rfl, rfl⟩
    | ok _ =>
      simp only [removeSlots_perm hp]
      generalize removeSlots _ e.data.slots q2.data = q
      obtain ⟨q1, a⟩ := q
      cases q1 with
      | error x => exact ⟨rfl, rfl⟩
      | ok _ =>
        simp only
        generalize detach (q2.withData (removeAttachments atts a)).graph = q
        obtain ⟨q1, g⟩ := q
        cases q1 with
        | error x => exact ⟨rfl, rfl⟩
        | ok _ => exact ⟨⟨hp, rfl⟩, rfl⟩

theorem cleanUnlessBy_agree {o o' : Orders} (ho : o.Ok) (ho' : o'.Ok) (safe : Bool) (hs : Weak e) :
    Agree (cleanUnlessBy o safe e).1 (cleanUnlessBy o' safe e).1 ∧ (cleanUnlessBy o safe e).2 = (cleanUnlessBy o' safe e).2 := by
  unfold cleanUnlessBy
  split
  · exact ⟨.refl _, rfl⟩
  · exact cleanBy_agree ho ho' hs

theorem runBy_alike {o o' : Orders} (ho : o.Ok) (ho' : o'.Ok) (c : Op F) (hs : Weak e) :
    Alike (c.runBy o e).1 (c.runBy o' e).1 ∧ (c.runBy o e).2 = (c.runBy o' e).2 := by
  cases c with
  | scale x y =>
    simp only [Op.runBy]
    cases (scale x y e).1 with
    | error x => exact ⟨.error x, trivial⟩
    | ok _ => exact ⟨.ok .scaled, trivial⟩
  | clean =>
    simp only [Op.runBy]
    have := cleanBy_agree ho ho' hs
    generalize cleanBy o e = q at this ⊢
    generalize cleanBy o' e = q' at this ⊢
    obtain ⟨q1, q2⟩ := q
    obtain ⟨r1, r2⟩ := q'
    obtain ⟨h1, h2⟩ := this
    cases q1 <;> cases r1
    · cases h1; exact ⟨.error _, h2⟩
    · exact h1.elim
    · exact h1.elim
    · exact ⟨.ok (.cleaned h1.1 h1.2), h2⟩
  | eraseSkins n s =>
    simp only [Op.runBy]
    have hk := removeSkins_any e.doc.version.is38 n e.data
    unfold eraseSkinsBy
    generalize removeSkins n e.data = q at hk ⊢
    obtain ⟨q1, a⟩ := q
    cases q1 with
    | error x => exact ⟨.error _, rfl⟩
    | ok r =>
      obtain ⟨imgs, regions⟩ := r
      simp only at hk ⊢
      cases hg : SpineNodes.create (e.withData a).toJson with
      | error x => exact ⟨.error _, rfl⟩
      | ok g =>
        simp only
        have := cleanUnlessBy_agree ho ho' s (weak_removeSkins hs hk hg)
        generalize cleanUnlessBy o s { e.withData a with graph := g } = q at this ⊢
        generalize cleanUnlessBy o' s { e.withData a with graph := g } = q' at this ⊢
        obtain ⟨q1, q2⟩ := q
        obtain ⟨r1, r2⟩ := q'
        obtain ⟨h1, h2⟩ := this
        cases h2
        cases q1 <;> cases r1
        · cases h1; exact ⟨.error _, rfl⟩
        · exact h1.elim
        · exact h1.elim
        · exact ⟨.ok (.skins _ h1.1 h1.2), rfl⟩
  | eraseAnims arg t s =>
    simp only [Op.runBy]
    unfold eraseAnimsBy
    cases arg with
    | other => exact ⟨.error _, rfl⟩
    | list names =>
      simp only
      rw [eraseRaw_fst]
      have hw := weak_filterAnims hs (fun p => decide (p.1 ∉ names))
      generalize e.withData { e.data with animations := e.data.animations.filter (fun p => decide (p.1 ∉ names)) } = e1 at hw ⊢
      split
      · exact ⟨.error _, rfl⟩
      · have := cleanUnlessBy_agree ho ho' s hw
        generalize cleanUnlessBy o s e1 = q at this ⊢
        generalize cleanUnlessBy o' s e1 = q' at this ⊢
        obtain ⟨q1, q2⟩ := q
        obtain ⟨r1, r2⟩ := q'
        obtain ⟨h1, h2⟩ := this
        cases h2
        cases q1 <;> cases r1
        · cases h1; exact ⟨.error _, rfl⟩
        · exact h1.elim
        · exact h1.elim
        · exact ⟨.ok (.anims _ h1.1 h1.2), rfl⟩

/-- with the orders of the runtime -/
theorem runBy_rt (c : Op F) (e : Editor F) : c.run e = ((c.runBy (Orders.rt F) e).1.map (fun _ => ()), (c.runBy (Orders.rt F) e).2) := by
  have key : ∀ {α : Type} (x : Except Err α) (f : α → Result F), x.map (fun _ => ()) = (x.map f).map (fun _ => ()) := by
    intro α x f; cases x <;> rfl
  cases c with
  | eraseSkins n s => simp only [Op.run, Op.runBy, eraseSkinsBy_rt, ← key]
  | eraseAnims a t s => simp only [Op.run, Op.runBy, eraseAnimsBy_rt, ← key]
  | clean => simp only [Op.run, Op.runBy, cleanBy_rt, ← key]
  | scale x y =>
    simp only [Op.run, Op.runBy, ← key]
    cases hx : scale x y e with
    | mk a b => cases a <;> rfl

end Editor
end Spine
