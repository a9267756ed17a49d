import Verif.Lemmas.SimRead
/-
The images referenced by a skeleton, on the heap.
-/
set_option linter.unusedSectionVars false
namespace Spine
namespace Alias
open M
variable {F : Type} [PyRt F] {B : Nat} {N : Nat → Prop} {h : Heap F}

/-- an entry of `images_references` -/
def tImage (i : ImageRef F) : Tree F :=
  .node .dict ((s!!"path", .leaf (.str i.path)) :: (match i.scale with
    | none => []
    | some s => [(s!!"scale", .leaf (.flt s))]))

theorem height_images (im : Dict (ImageRef F)) : (tdict tImage im).height ≤ 3 := by
  unfold tdict
  simp only [Tree.height]
  have : Tree.heightK (dmap tImage im) ≤ 2 := by
    refine heightK_of ?_
    intro p hp
    obtain ⟨x, _, rfl⟩ := List.mem_map.mp hp
    simp only
    unfold tImage
    cases x.2.scale <;> simp [Tree.height, Tree.heightK]
  omega

theorem JOk.float (x : F) : JOk B N h (.flt x) (.flt x) := ⟨(fun _ ha => nomatch ha), readJ_iff.mpr (.flt x)⟩

theorem newImage_run (hz : Zone N h) (i : ImageRef F) :
    ∃ r h', newImage i h = (.ok r, h') ∧ Ext N h Nil N h' ∧ Rep B N h' r (tImage i) (Btw h.length h'.length) := by
  have a1 := (Acc.start (B := B) hz).leaf s!!"path" (JOk.str i.path)
  unfold newImage tImage
  cases i.scale with
  | none =>
    obtain ⟨k1, k2⟩ := a1.alloc .dict
    exact ⟨_, _, run_alloc, k1, k2⟩
  | some x =>
    obtain ⟨k1, k2⟩ := (a1.leaf s!!"scale" (JOk.float x)).alloc .dict
    exact ⟨_, _, run_alloc, k1, k2⟩

theorem all₂_eq_self {α : Type} : ∀ l : List α, All₂ (fun a b => a = b) l l
  | [] => .nil
  | _ :: l => .cons rfl (all₂_eq_self l)

theorem mapE_id {α : Type} (l : List α) : mapE (fun x : α => (.ok x : Except Err α)) l = .ok l := by
  induction l with
  | nil => rfl
  | cons x l ih => rw [mapE_cons, ih]; rfl

theorem imagesRefs_run (hz : Zone N h) (im : Dict (ImageRef F)) :
    ∃ r N' h', (mapV newImage im >>= fun d => alloc (.dict d)) h = (.ok r, h') ∧ Ext N h Nil N' h' ∧
      Rep B N' h' r (tdict tImage im) (Btw h.length h'.length) := by
  have hs := mapL_step (B := B) (F := F) (g := fun p : Str × ImageRef F => do
      let y ← newImage p.2
      return (p.1, y)) (gv := fun p => (.ok p : Except Err (Str × ImageRef F))) (ref := fun q => q) (T := fun x q => q = (x.1, tImage x.2))
    (K := fun _ _ a b => a = b) (fun _ _ _ _ _ _ _ _ h => h) (by
      rintro N h ⟨k, i⟩ _ hz rfl
      obtain ⟨r, h', e1, e2, e3⟩ := newImage_run (B := B) hz i
      refine .ok (y := (k, r)) (h' := h') (N' := N) ?_ e2 ⟨k, _, rfl, rfl, e3⟩
      rw [run_bind e1]
      rfl) (l := im) (m := im) (all₂_eq_self im) (Acc.start hz)
  rw [mapE_id] at hs
  obtain ⟨ys, N1, h1, run, e1, kts, g1, g2⟩ := hs.of_ok
  simp only [List.map_id', List.nil_append] at g2
  obtain ⟨k1, k2⟩ := g2.alloc .dict
  refine ⟨.ptr h1.length, N1, h1 ++ [Kind.dict.obj ys], ?_, e1.trans k1 (fun _ h _ => h), ?_⟩
  · unfold mapV
    rw [run_bind run]
    exact run_alloc
  · rw [all₂_map_eq (f := fun x : Str × ImageRef F => (x.1, tImage x.2)) g1 (fun _ _ h => h)] at k2
    exact k2

/-- `get_images_references` -/
theorem newImages_step {E : Env F} {q : F → Prop} (hm : B ≤ E.lim) (hz : Zone N h) {data sk : Ref F} {s : SpineDoc F} {S : Nat → Prop}
    (hok : s.data.Ok q) (hfit : s.data.Fit) (hr : Rep B N h data (tData s.data) S) (hk : JOk B N h sk (.dict s.skeleton)) :
    Step N h (newImages E sk s.version data) (Editor.imagesReferences s) (Made B (fun x t => t = tdict tImage x) h) := by
  have hv : viewDoc E sk s.version data h = (.ok s, h) := by
    unfold viewDoc
    rw [run_bind (run_view (view_data hz hm hok hfit hr)), run_bind (run_view (readJ_le hk.2 hm))]
    rfl
  unfold newImages
  cases hi : Editor.imagesReferences s with
  | error x =>
    refine .error (h' := h) ?_ (.refl hz _)
    rw [run_bind hv, hi]
    rfl
  | ok im =>
    obtain ⟨r, N', h', run, e1, r1⟩ := imagesRefs_run (B := B) hz im
    refine .ok (y := r) (h' := h') (N' := N') ?_ e1 ⟨_, rfl, r1⟩
    rw [run_bind hv, hi, run_bind run_lift]
    exact run

/-- `_clean_images_references` -/
theorem cleanImages_run {E : Env F} (hm : 8 + B ≤ E.lim) (hz : Zone N h) {im : Dict (ImageRef F)} {r : Ref F} {S : Nat → Prop} (hl : (Dict.keys im).Nodup)
    (hr : Rep B N h r (tdict tImage im) S) (ids : List (Option Str)) :
    ∃ c N' h', cleanImages E r ids h = (.ok c, h') ∧ Ext N h Nil N' h' ∧
      Rep B N' h' c (tdict tImage (im.filter (fun p => some p.1 ∉ ids))) (fun a => h.length ≤ a) :=
  copy_del (P := fun k => some k ∈ ids) hz hl (by have := height_images im; omega) hr

/-! ### The entries written are shallow -/

theorem shallow_attrs {t : Tag} {a : Attrs F} {r : Ref F} {S : Nat → Prop} (hr : Rep B N h r (tAttrs t a) S) (v38 : Bool) :
    Shallow B (t.cls.toJson v38 a) := by
  obtain ⟨b, rs, S', rfl, -, -, -, h4, -⟩ := Rep.inst hr
  have hall := h4.all₂ (key := fun p : Str × JVal F => p.1) (T := fun p => .leaf p.2)
  refine ⟨_, rfl, fun p hp0 => ?_⟩
  have hp : p ∈ a := (List.mem_filter.mp hp0).1
  clear hp0
  clear h4 hr
  induction hall with
  | nil => cases hp
  | cons h1 _ ih =>
    cases hp with
    | head =>
      obtain ⟨_, S'', h2⟩ := h1
      exact ⟨h, _, h2.leafJ.2⟩
    | tail _ hp => exact ih hp

theorem shallow_list {α : Type} {T : α → Tree F} {P : α → Prop} (hT : ∀ x r S, Rep B N h r (T x) S → P x) {l : List α} {r : Ref F} {S : Nat → Prop}
    (hr : Rep B N h r (tlist T l) S) : ∀ x ∈ l, P x := by
  obtain ⟨a, rs, S', rfl, -, -, -, h4, -⟩ := hr.list
  have hall := h4.all₂ (key := fun _ : α => []) (T := T)
  clear h4 hr
  induction hall with
  | nil => exact fun _ hx => nomatch hx
  | cons h1 _ ih =>
    intro x hx
    cases hx with
    | head =>
      obtain ⟨_, S'', h2⟩ := h1
      exact hT _ _ _ h2
    | tail _ hp => exact ih x hp

theorem shallow_data {a : AnimData F} {r : Ref F} {S : Nat → Prop} (hz : Zone N h) (hr : Rep B N h r (tData a) S) (v38 : Bool) :
    (∀ b ∈ a.bones, Shallow B (b.toJson v38)) ∧ (∀ b ∈ a.slots, Shallow B (b.toJson v38)) ∧ (∀ b ∈ a.ik, Shallow B (ikCls.toJson v38 b)) := by
  obtain ⟨x, T, _, h1, _⟩ := Rep.attr (k := s!!"bones") (t := tlist tBone a.bones) hz hr rfl
  obtain ⟨y, U, _, h2, _⟩ := Rep.attr (k := s!!"slots") (t := tlist tSlot a.slots) hz hr rfl
  obtain ⟨z, V, _, h3, _⟩ := Rep.attr (k := s!!"ik") (t := tlist (tAttrs .ik) a.ik) hz hr rfl
  exact ⟨shallow_list (fun b r S hb => shallow_attrs (t := .bone) hb v38) h1, shallow_list (fun b r S hb => shallow_attrs (t := .slot) hb v38) h2,
    shallow_list (fun b r S hb => shallow_attrs (t := .ik) hb v38) h3⟩

end Alias
end Spine
