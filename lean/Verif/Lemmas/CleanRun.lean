import Verif.Lemmas.Core
/- The steps of a successful `clean_animation`, with graph operations as restrictions. -/
set_option linter.unusedSectionVars false
set_option linter.unusedSimpArgs false
namespace Spine
open JVal Graph Container
variable {F : Type} [PyRt F]

theorem mem_eraseDups {α : Type} [BEq α] [LawfulBEq α] (l : List α) (x : α) : x ∈ l.eraseDups ↔ x ∈ l := List.mem_eraseDups

theorem nodup_eraseDups {α : Type} [BEq α] [LawfulBEq α] (l : List α) : l.eraseDups.Nodup := by
  obtain ⟨n, hn⟩ : ∃ n, l.length ≤ n := ⟨_, Nat.le_refl _⟩
  induction n generalizing l with
  | zero =>
    have : l = [] := List.length_eq_zero_iff.1 (by omega)
    simp [this]
  | succ n ih =>
    cases l with
    | nil => simp
    | cons x l =>
      rw [List.eraseDups_cons, List.nodup_cons]
      refine ⟨?_, ih _ ?_⟩
      · rw [mem_eraseDups]; simp
      · have := List.length_filter_le (fun b => !b == x) l
        simp only [List.length_cons] at hn
        omega

theorem mem_setList (l : List Str) (x : Str) : x ∈ setList F l ↔ x ∈ l := by
  unfold setList
  rw [(PyRt.setOrder_perm (F := F) _).mem_iff, mem_eraseDups]

theorem nodup_setList (l : List Str) : (setList F l).Nodup :=
  (PyRt.setOrder_perm (F := F) _).nodup_iff.2 (nodup_eraseDups l)

namespace Editor

/-- the graph part at the start of `clean_animation` -/
structure CleanStart (e : Editor F) (ids atts slots L : List Str) (g0 g1 : SGraph F) : Prop where
  unused : AnimData.unused e.data = .ok (slots, atts)
  hg0 : g0 = restrict e.graph ((setList F slots).map (graphId .slot) ++ (setList F atts).map (graphId .attachment))
  hL : ∀ x, x ∈ L ↔ Doomed g0 Node.children .slot x
  hg1 : g1 = restrict g0 L
  hids : ids = setList F (slots ++ L.map (baseId .slot))

/-- a successful run of `clean_animation` -/
structure CleanRun (e e' : Editor F) (ids atts slots L A B I : List Str) (g0 g1 g2 g3 : SGraph F) (bs : List (Bone F))
    (ss : List (Slot F)) (is : List (Attrs F)) (an : Dict (Anim F)) : Prop extends CleanStart e ids atts slots L g0 g1 where
  hbs : mapE Bone.init ((nodesOf g1 .bone).map (·.2.2)) = .ok bs
  hss : mapE Slot.init ((nodesOf g1 .slot).map (·.2.2)) = .ok ss
  his : mapE ikCls.init ((nodesOf g1 .ik).map (·.2.2)) = .ok is
  han : mapMutD (fun _ x => Anim.removeDrawOrder ids e.data.slots x) (dmap (fun x => (x.removeSlots ids).removeDeformSlots ids)
    (dmap (·.setDefaults e.doc.version.is38) e.data.animations)) = (.ok (), an)
  hA : ∀ x, x ∈ A ↔ Doomed g1 Node.parents .attachment x
  hg2 : g2 = restrict g1 A
  hB : ∀ x, x ∈ B ↔ Doomed g2 Node.children .attachment x
  hg3 : g3 = restrict g2 B
  hI : ∀ x, x ∈ I ↔ Doomed g3 Node.parents .image x
  graph : e'.graph = restrict g3 I
  images : e'.images = e.images.filter (fun p => p.1 ∉ I.map (baseId .image))
  version : e'.doc.version = e.doc.version
  skeleton : e'.doc.skeleton = e.doc.skeleton
  data : e'.data = removeAttachments atts { slotsInSkins ids
    (AnimData.setDefaults e.doc.version.is38 { e.data with bones := bs, slots := ss, ik := is }) with animations := an }

theorem clean_run {b : Bool} {e e' : Editor F} {ids atts : List Str} (hc : Core b e.graph) (h : clean e = (.ok (ids, atts), e')) :
    ∃ slots L A B I g0 g1 g2 g3 bs ss is an, CleanRun e e' ids atts slots L A B I g0 g1 g2 g3 bs ss is an := by
  obtain ⟨slots, g1, e1, a, imgs, g4, hu, hg, hr, hs, hd, rfl⟩ := clean_ok h
  -- the graph before reading back
  unfold cleanGraph at hg
  split at hg
  · simp at hg
  rename_i x ga hga
  split at hg
  · simp at hg
  rename_i y gb hgb
  have ea := removeNamed_inv _ _ hc.wf hga
  have eb := removeNamed_inv _ _ (by rw [ea]; exact wf_restrict hc.wf _) hgb
  rw [ea, restrict_restrict] at eb
  obtain ⟨L, hL1, _, hL2⟩ := removeLeafs_spec (baseId .slot) NType.slot (g := gb) (by rw [eb]; exact wf_restrict hc.wf _)
  rw [hL1] at hg
  simp only [Prod.mk.injEq, Except.ok.injEq] at hg
  obtain ⟨hids, hg1⟩ := hg
  have c0 : Core b gb := by rw [eb]; exact hc.restrict _
  have c1 : Core b g1 := by rw [← hg1]; exact c0.restrict _
  -- reading back
  obtain ⟨j, bs, ss, is, hj, hb, hss, his, he1⟩ := readBack_ok hr
  have hj' : SpineNodes.toJsonData g1 = .ok j := hj
  rw [c1.toJsonData] at hj'
  injection hj' with hj'
  subst hj'
  -- the other references
  obtain ⟨an, han, ha⟩ := removeSlots_ok hs
  -- the graph afterwards
  subst he1
  unfold detach at hd
  obtain ⟨A, hA1, _, hA2⟩ := removeHeads_spec (baseId .attachment) NType.attachment (g := g1) c1.wf
  obtain ⟨B, hB1, _, hB2⟩ := removeLeafs_spec (baseId .attachment) NType.attachment (g := restrict g1 A) (wf_restrict c1.wf _)
  obtain ⟨I, hI1, _, hI2⟩ := removeHeads_spec (baseId .image) NType.image (g := restrict (restrict g1 A) B)
    (wf_restrict (wf_restrict c1.wf _) _)
  have hd' : (match removeHeadsOfType (baseId .attachment) NType.attachment g1 with
    | (.error e, g) => (.error e, g)
    | (.ok _, g) => match Container.removeLeafsOfType (baseId .attachment) .attachment g with
      | (.error e, g) => (.error e, g)
      | (.ok _, g) => Container.removeHeadsOfType (baseId .image) .image g) = (.ok imgs, g4) := hd
  rw [hA1] at hd'
  simp only [hB1, hI1, Prod.mk.injEq, Except.ok.injEq] at hd'
  obtain ⟨himgs, hg4⟩ := hd'
  refine ⟨slots, L, A, B, I, gb, g1, _, _, bs, ss, is, an, ⟨hu, eb, hL2, hg1.symm, hids.symm⟩, hb, hss, his, han, hA2, rfl, hB2, rfl,
    hI2, hg4.symm, ?_, rfl, rfl, ?_⟩
  · show List.filter _ e.images = _
    rw [← himgs]
    apply List.filter_congr
    intro p _
    simp
  · rw [ha]; rfl

end Editor
end Spine
