import Verif.Lemmas.EraseSkins
import Verif.Lemmas.SampleRan
import Verif.Lemmas.Weak
/-
C49–C51: `erase_skins`.
-/
set_option linter.unusedSectionVars false
set_option linter.unusedSimpArgs false
set_option synthInstance.maxHeartbeats 200000
set_option synthInstance.maxSize 1000
namespace Spine
open JVal Graph AnimData
variable {F : Type} [PyRt F]
namespace Editor
variable {e e' : Editor F}

/-! ## Proofs -/

theorem cleanUnless_skins {safe : Bool} {r : List Str × List Str} (h : cleanUnless safe e = (.ok r, e')) :
    e'.data.skins.map (·.name) = e.data.skins.map (·.name) ∧
    All₂ (fun p p' => p'.1 = p.1 ∧ Dict.keys p'.2.deform = Dict.keys p.2.deform) e.data.animations e'.data.animations := by
  unfold cleanUnless at h
  split at h
  · simp only [Prod.mk.injEq] at h
    rw [h.2]
    refine ⟨rfl, ?_⟩
    generalize e'.data.animations = l
    induction l with
    | nil => exact .nil
    | cons x l ih => exact .cons ⟨rfl, rfl⟩ ih
  · obtain ⟨h1, h2⟩ := clean_anims (ids := r.1) (atts := r.2) h
    refine ⟨?_, ?_⟩
    · rw [h2, List.map_map]; rfl
    · refine h1.mono ?_
      intro p p' _ ⟨e1, hc⟩
      refine ⟨e1, ?_⟩
      rw [hc.deform_keys]
      show Dict.keys (dmap _ _) = _
      rw [keys_dmap]

/-! ## C49 -/

/-- C49: the skins with one of the names are gone, the others are there in the same order; every animation is there, with the
deform timelines of the other skins only. -/
theorem c49_removed {names : List Str} {safe : Bool} {r : List Str × List Str} {gone : List (Option Str)}
    (h : eraseSkins names safe e = (.ok (r, gone), e')) :
    e'.data.skins.map (·.name) = (e.data.skins.map (·.name)).filter (fun n => n ∉ names) ∧
    All₂ (fun p p' => p'.1 = p.1 ∧ Dict.keys p'.2.deform = (Dict.keys p.2.deform).filter (fun n => n ∉ names))
      e.data.animations e'.data.animations := by
  obtain ⟨imgs, regions, a, g, e1, h1, h2, h3, h4, rfl⟩ := eraseSkins_ok h
  obtain ⟨_, _, f3, f4⟩ := removeSkins_facts h1
  obtain ⟨c1, c2⟩ := cleanUnless_skins h4
  refine ⟨c1.trans f3, ?_⟩
  have e2 : ({ e.withData a with graph := g } : Editor F).data.animations = dmap (dropDeforms names) e.data.animations := by
    show a.animations = _
    rw [f4]
  rw [e2] at c2
  unfold dmap at c2
  rw [All₂.map_left] at c2
  refine c2.mono ?_
  intro p p' _ ⟨e3, h⟩
  refine ⟨e3, ?_⟩
  rw [h]
  show Dict.keys (p.2.deform.filter _) = _
  unfold Dict.keys
  rw [List.filter_map]
  rfl

/-- C49 in safe mode: nothing but the skins, their deform timelines and the linked meshes changes; a skin without linked meshes
to removed skins stays as it is. -/
theorem c49_safe {names : List Str} {r : List Str × List Str} {gone : List (Option Str)}
    (h : eraseSkins names true e = (.ok (r, gone), e')) :
    r = ([], []) ∧ e'.doc.version = e.doc.version ∧ e'.doc.skeleton = e.doc.skeleton ∧
    e'.data = { e.data with skins := e'.data.skins, animations := dmap (dropDeforms names) e.data.animations } ∧
    ((∀ slot key x, e.data.HasAtt slot key x → ∀ n ∈ names, ¬ x.LinksTo n) →
      e'.data.skins = e.data.skins.filter (fun s => s.name ∉ names)) := by
  obtain ⟨imgs, regions, a, g, e1, h1, h2, h3, h4, rfl⟩ := eraseSkins_ok h
  simp only [cleanUnless, if_true, Prod.mk.injEq, Except.ok.injEq] at h4
  obtain ⟨rfl, rfl⟩ := h4
  refine ⟨rfl, rfl, rfl, (removeSkins_facts h1).2.2.2, ?_⟩
  intro hno
  have := removeSkins_after h1 (fun slot key x n hx hn hl => absurd hl (hno slot key x hx n hn))
  show a.skins = _
  refine All₂.eq_of this ?_
  intro s s' hs ⟨e1, hatt⟩
  have hs := (List.mem_filter.1 hs).1
  have : s'.attachments = s.attachments := by
    refine All₂.eq_of hatt ?_
    rintro ⟨slot, d⟩ ⟨slot', d'⟩ hd ⟨e2, hq⟩
    simp only at e2 hq
    rw [e2]
    refine Prod.ext rfl ?_
    refine All₂.eq_of hq ?_
    rintro ⟨k, x⟩ ⟨k', x'⟩ hx ⟨e3, hf⟩
    simp only at e3 hf
    rw [e3]
    refine Prod.ext rfl ?_
    cases hf with
    | same => rfl
    | copy hn hl _ _ _ => exact absurd hl (hno _ _ _ ⟨s, hs, d, hd, hx⟩ _ hn)
  cases s; cases s'
  simp only at e1 this
  rw [e1, this]

/-- C49: the call succeeds only when every name is the name of a skin, and no name is given twice. -/
theorem c49_known {names : List Str} {safe : Bool} {r : List Str × List Str} {gone : List (Option Str)}
    (h : eraseSkins names safe e = (.ok (r, gone), e')) : (∀ n ∈ names, ∃ s ∈ e.data.skins, s.name = n) ∧ names.Nodup := by
  obtain ⟨imgs, regions, a, g, e1, h1, _⟩ := eraseSkins_ok h
  exact ⟨(removeSkins_facts h1).1, (removeSkins_facts h1).2.1⟩

theorem removeSkins_append {pre rest : List Str} : ∀ {a a1 : AnimData F} {r : List (Option Str) × List Str},
    removeSkins pre a = (.ok r, a1) → (∃ r', removeSkins (pre ++ rest) a = (r', (removeSkins rest a1).2) ∧
      (∀ x, (removeSkins rest a1).1 = .error x → r' = .error x)) := by
  induction pre with
  | nil =>
    intro a a1 r h
    simp only [removeSkins, Prod.mk.injEq] at h
    rw [← h.2]
    exact ⟨_, rfl, fun x hx => hx⟩
  | cons n ns ih =>
    intro a a1 r h
    obtain ⟨i, s, is, rs, a2, h1, h2, _⟩ := removeSkins_cons h
    obtain ⟨r', e1, e2⟩ := ih h2
    rw [List.cons_append, removeSkins, h1]
    simp only
    cases r' with
    | error x =>
      refine ⟨.error x, ?_, ?_⟩
      · rw [e1]
      · intro y hy; rw [← e2 y hy]
    | ok v =>
      refine ⟨.ok (i ++ v.1, s ++ v.2), ?_, ?_⟩
      · rw [e1]
      · intro y hy; cases e2 y hy

/-- C49: at the first name that is not the name of a skin, the call raises SpineJsonEditorError; the skins named before are
already gone. -/
theorem c49_unknown {pre post : List Str} {n : Str} {safe : Bool} {e1 : Editor F} {r : List Str × List Str} {gone : List (Option Str)}
    (h : eraseSkins pre true e = (.ok (r, gone), e1)) (hn : ∀ s ∈ e1.data.skins, s.name ≠ n) :
    eraseSkins (pre ++ n :: post) safe e = (.error .editor, e.withData e1.data) := by
  obtain ⟨imgs, regions, a, g, e2, h1, h2, h3, h4, rfl⟩ := eraseSkins_ok h
  simp only [cleanUnless, if_true, Prod.mk.injEq, Except.ok.injEq] at h4
  obtain ⟨rfl, rfl⟩ := h4
  have hskin : removeSkins (n :: post) a = (.error .editor, a) := by
    rw [removeSkins]
    have : getSkin a n = none := by
      unfold getSkin
      rw [List.find?_eq_none]
      intro s hs
      simpa using hn s hs
    unfold removeSkin
    rw [this]
  obtain ⟨r', e1, e2⟩ := removeSkins_append (rest := n :: post) h1
  rw [hskin] at e1 e2
  unfold eraseSkins
  rw [e1, e2 _ rfl]
  rfl

/-- C49: an unknown first name changes nothing. -/
theorem c49_unknown_first {n : Str} {post : List Str} {safe : Bool} (hn : ∀ s ∈ e.data.skins, s.name ≠ n) :
    eraseSkins (n :: post) safe e = (.error .editor, e) := by
  have : getSkin e.data n = none := by
    unfold getSkin
    rw [List.find?_eq_none]
    intro s hs
    simpa using hn s hs
  unfold eraseSkins
  rw [removeSkins]
  unfold removeSkin
  rw [this]
  rfl

/-! ## C50 -/

theorem att_defaults_links (b : Bool) (x : Att F) (n : Str) : (x.setDefaults b).LinksTo n ↔ x.LinksTo n := by
  unfold Att.LinksTo
  have hk : (x.setDefaults b).kind = x.kind := rfl
  rw [hk]
  refine and_congr_right (fun hl => ?_)
  show Dict.get? ((AttKind.cls x.kind).setDefaults b x.attrs) _ = _ ↔ _
  rw [Cls.get?_setDefaults, hl]
  cases hg : Dict.get? x.attrs s!!"skin" with
  | none => exact Iff.rfl
  | some v =>
    cases v with
    | null =>
      have : Cls.dflt (AttKind.cls .linked : Cls F) b s!!"skin" .null = .null := by cases b <;> rfl
      simp [this]
    | _ => simp [Cls.dflt]

/-- C50 for one name: in every remaining skin, an attachment that is not linked to the removed skin is unchanged, and one that is
is replaced by a copy of the attachment of the removed skin under the same slot and name, with its own name, path, width and
height. -/
theorem c50_single {n : Str} {r : List Str × List Str} {gone : List (Option Str)}
    (h : eraseSkins [n] true e = (.ok (r, gone), e')) : ∃ s0, IsSkin e.data.skins n s0 ∧
    All₂ (fun s s' => s'.name = s.name ∧ All₂ (fun p p' => p'.1 = p.1 ∧ All₂ (fun q q' => q'.1 = q.1 ∧
        ((¬ q.2.LinksTo n ∧ q'.2 = q.2) ∨ (q.2.LinksTo n ∧ ∃ p0, s0.At p.1 q.1 p0 ∧ CopyOf p0 q.2 q'.2))) p.2 p'.2)
      s.attachments s'.attachments) (e.data.skins.filter (fun s => s.name ≠ n)) e'.data.skins := by
  obtain ⟨imgs, regions, a, g, e1, h1, h2, h3, h4, rfl⟩ := eraseSkins_ok h
  simp only [cleanUnless, if_true, Prod.mk.injEq, Except.ok.injEq] at h4
  obtain ⟨rfl, rfl⟩ := h4
  obtain ⟨i, s, is, rs, a1, k1, k2, _⟩ := removeSkins_cons h1
  simp only [removeSkins, Prod.mk.injEq] at k2
  obtain ⟨_, rfl⟩ := k2
  obtain ⟨s0, hg, _, hsk, ha1⟩ := removeSkin_skins k1
  refine ⟨s0, (getSkin_some _ _ _).1 hg, ?_⟩
  refine hsk.mono ?_
  intro s s' hs hr
  refine ⟨hr.1, ?_⟩
  rcases hr.2 with ⟨e, _⟩ | ⟨_, hr⟩
  · rw [List.mem_filter] at hs; simp [e] at hs
  · refine hr.mono ?_
    intro p p' _ ⟨e1, h⟩
    refine ⟨e1, h.mono ?_⟩
    intro q q' _ ⟨e2, h⟩
    exact ⟨e2, AttAfter.of_relinked h⟩

/-- C50 for any names, in safe mode: a linked mesh that takes its mesh from a removed skin is replaced by a copy of that mesh with
its own name, path, width and height; every other attachment of a remaining skin is unchanged.  Missing: meshes taken from
linked meshes (`c50_counterexample_linked`). -/
theorem c50_copies_partial {names : List Str} {r : List Str × List Str} {gone : List (Option Str)}
    (h : eraseSkins names true e = (.ok (r, gone), e')) (hp : PlainTargets e.data names) :
    All₂ (SkinAfter e.data names) (e.data.skins.filter (fun s => s.name ∉ names)) e'.data.skins := by
  obtain ⟨imgs, regions, a, g, e1, h1, h2, h3, h4, rfl⟩ := eraseSkins_ok h
  simp only [cleanUnless, if_true, Prod.mk.injEq, Except.ok.injEq] at h4
  obtain ⟨rfl, rfl⟩ := h4
  exact removeSkins_after h1 hp

/-- C50: no linked mesh refers to a removed skin, in both modes.  Missing: meshes taken from linked meshes
(`c50_counterexample_linked`). -/
theorem c50_no_reference_partial {names : List Str} {safe : Bool} {r : List Str × List Str} {gone : List (Option Str)}
    (h : eraseSkins names safe e = (.ok (r, gone), e')) (hp : PlainTargets e.data names) {slot key : Str} {x : Att F}
    (hx : e'.data.HasAtt slot key x) : ∀ n ∈ names, ¬ x.LinksTo n := by
  obtain ⟨imgs, regions, a, g, e1, h1, h2, h3, h4, rfl⟩ := eraseSkins_ok h
  have key : ∀ slot key x, a.HasAtt slot key x → ∀ n ∈ names, ¬ x.LinksTo n := by
    rintro slot key x' ⟨s', hs', d', hd', hx'⟩ n hn hl
    obtain ⟨s, hs, h⟩ := (removeSkins_after h1 hp).right hs'
    obtain ⟨⟨slot', d⟩, hd, e1, h⟩ := h.atts.right hd'
    obtain ⟨⟨key', x⟩, hx, e2, h⟩ := h.right hx'
    simp only at e1 e2 h
    subst e1 e2
    cases h with
    | same h => exact h n hn hl
    | copy hn' hl' hs0 hp0 hc =>
      have := hp _ _ x _ ⟨s, (List.mem_filter.1 hs).1, d, hd, hx⟩ hn' hl' _ hs0 _ hp0
      rw [← hc.kind] at this
      exact this hl.1
  unfold cleanUnless at h4
  split at h4
  · simp only [Prod.mk.injEq] at h4
    obtain ⟨_, rfl⟩ := h4
    exact key slot _ x hx
  · obtain ⟨s', hs', d', hd', hx'⟩ := hx
    have hsk := (clean_anims (ids := r.1) (atts := r.2) h4).2
    have hs' : s' ∈ e1.data.skins := hs'
    rw [hsk] at hs'
    obtain ⟨s, hs, rfl⟩ := List.mem_map.1 hs'
    obtain ⟨⟨d, hd, hx⟩, _, _⟩ := mem_cutSkin.1 ⟨d', hd', hx'⟩
    rw [Skin.setDefaults_eq] at hd
    obtain ⟨d0, hd0, rfl⟩ := (mem_dmap (dmap (Att.setDefaults _)) s.attachments _ _).1 hd
    obtain ⟨x0, hx0, rfl⟩ := (mem_dmap (Att.setDefaults _) d0 _ _).1 hx
    intro n hn hl
    exact key _ _ x0 ⟨s, hs, d0, hd0, hx0⟩ n hn ((att_defaults_links _ _ _).1 hl)

/-! ## C51 -/

/-- C51: no reported image is used by a remaining skin.  The document and its names are arbitrary, and earlier calls may have failed.
Missing: editors on which a cleaning was stopped half-way by a drawOrder offset that names an unknown slot; there it is false
(`c51_counterexample`). -/
theorem c51_reported_partial {names : List Str} {safe : Bool} {r : List Str × List Str} {gone : List (Option Str)} (hr : Called e)
    (h : eraseSkins names safe e = (.ok (r, gone), e')) {i : Str} (hi : some i ∈ gone) : ¬ e'.data.UsesImage i := by
  obtain ⟨imgs, regions, a, g, e1, h1, h2, h3, h4, rfl⟩ := eraseSkins_ok h
  have hk := removeSkins_any e.doc.version.is38 names e.data
  rw [h1] at hk
  have s1 := weak_removeSkins hr.weak hk h2
  intro hu
  rw [h3] at hi
  exact s1.not_gone (s1.clean_uses h4 hu) _ hi

/-! ## Examples and counterexamples -/
section examples
open Sample

/-- skins, their attachments with kind and path, and the names of skins with deform timelines -/
def skinsOf (e : Editor Rat) : List (String × List (String × List (String × AttKind × Option String))) :=
  e.data.skins.map (fun s => (String.ofList s.name, s.attachments.map (fun p => (String.ofList p.1,
    p.2.map (fun q => (String.ofList q.1, q.2.kind, match q.2.attrs.val s!!"path" with | .str t => some (String.ofList t) | _ => none))))))
def deformsOf (e : Editor Rat) : List (List String) := e.data.animations.map (fun p => p.2.deform.map (fun q => String.ofList q.1))
def erased {σ : Type} (r : Res σ ((List Str × List Str) × List (Option Str))) : Except Err (List (Option String)) :=
  r.1.map (fun p => p.2.map (·.map String.ofList))

def linked (skin path : String) : J := obj [("type", txt "linkedmesh"), ("skin", txt skin), ("path", txt path), ("parent", txt "m")]

/-- three skins; `blue` links to meshes of `red` -/
def linking : J := Sample.doc [root] [slot "s" "root" [("attachment", txt "m")], slot "t" "root" [("attachment", txt "a")]]
  [("default", obj [("t", obj [("a", region "img/a")])]), ("red", obj [("s", obj [("m", mesh "red/m")]), ("t", obj [("a", region "red/a")])]),
   ("blue", obj [("s", obj [("m", linked "red" "blue/m")])])]
  [("walk", obj [("deform", obj [("red", obj []), ("blue", obj [])])])]

example : ∃ e, Sample.load linking = some e ∧ Ran e := ran_of (by decide +kernel)

/-- a call that meets the hypotheses of the theorems: the linked mesh becomes a mesh with its own path -/
example : (Sample.load linking).map (fun e => (erased (eraseSkins [s!!"red"] false e), deformsOf (eraseSkins [s!!"red"] false e).2)) =
    some (.ok [some "red/m", some "red/a"], [["blue"]]) := by decide +kernel
/-- the hypothesis of C50, for skins without linked meshes -/
def plainB (a : AnimData F) (names : List Str) : Bool := names.all (fun n => (getSkin a n).all (fun s =>
  s.attachments.all (fun p => p.2.all (fun q => decide (q.2.kind ≠ .linked)))))

theorem plain_of {a : AnimData F} {names : List Str} (h : plainB a names = true) : PlainTargets a names := by
  rintro slot key x n _ hn _ gone hg p ⟨d, h1, h2⟩
  have h := List.all_eq_true.1 h n hn
  rw [(getSkin_some a n gone).2 hg] at h
  simp only [Option.all_some] at h
  have h := List.all_eq_true.1 (List.all_eq_true.1 h _ (Dict.mem_of_get? h1)) _ (Dict.mem_of_get? h2)
  simpa using h

example : (Sample.load linking).any (fun e => plainB e.data [s!!"red"]) = true := by decide +kernel

example : (Sample.load linking).map (fun e => skinsOf (eraseSkins [s!!"red"] false e).2) =
    some [("default", [("t", [("a", .region, some "img/a")])]), ("blue", [("s", [("m", .mesh, some "blue/m")])])] := by decide +kernel

example : (Sample.load linking).map (fun e => (erased (eraseSkins [s!!"red", s!!"grey"] true e), (skinsOf (eraseSkins [s!!"red", s!!"grey"] true e).2).map (·.1))) =
    some (.error .editor, ["default", "blue"]) := by decide +kernel

/-- the links of the attachments -/
def linksOf (e : Editor Rat) : List (String × List (AttKind × Option String)) :=
  e.data.skins.map (fun s => (String.ofList s.name, s.attachments.flatMap (fun p =>
    p.2.map (fun q => (q.2.kind, match q.2.attrs.val s!!"skin" with | .str t => some (String.ofList t) | _ => none)))))

/-- `blue` links to `red`, whose mesh is linked to `red` -/
def linkedToLinked : J := Sample.doc [root] [slot "s" "root" [("attachment", txt "m")]]
  [("red", obj [("s", obj [("m", linked "red" "red/m")])]), ("blue", obj [("s", obj [("m", linked "red" "blue/m")])])] [("walk", obj [])]

/-- C50 is false of the code when the copied mesh is itself linked: it still refers to the removed skin. -/
theorem c50_counterexample_linked : (Sample.load linkedToLinked).map (fun e => linksOf (eraseSkins [s!!"red"] true e).2) =
    some [("blue", [(.linked, some "red")])] := by decide +kernel

/-- the linked mesh `n` of `blue` takes the mesh `m` of `red`; `red` also has a mesh `n` -/
def otherKey : J := Sample.doc [root] [slot "s" "root" [("attachment", txt "m")]]
  [("red", obj [("s", obj [("m", obj [("type", txt "mesh"), ("path", txt "red/m"), ("hull", .int 3)]), ("n", obj [("type", txt "mesh"), ("path", txt "red/n"), ("hull", .int 4)])])]),
   ("blue", obj [("s", obj [("n", linked "red" "blue/n")])])] [("walk", obj [])]

/-- C50 is false of the code: the mesh is looked up under the name of the linked mesh, not under its `parent`; the wrong mesh is copied. -/
theorem c50_counterexample_parent : (Sample.load otherKey).map (fun e => (eraseSkins [s!!"red"] true e).2.data.skins.map (fun s => s.attachments.flatMap (fun p =>
      p.2.map (fun q => num (q.2.attrs.val s!!"hull"))))) = some [[some 4]] := by decide +kernel

/-- the same without the mesh `n` in `red` -/
def missingKey : J := Sample.doc [root] [slot "s" "root" [("attachment", txt "m")]]
  [("red", obj [("s", obj [("m", mesh "red/m")])]), ("blue", obj [("s", obj [("n", linked "red" "blue/n")])])] [("walk", obj [])]

/-- C50 is false of the code: the call raises KeyError, and skins with an earlier name would be gone. -/
theorem c50_counterexample_missing : (Sample.load missingKey).map (fun e => erased (eraseSkins [s!!"red"] true e)) = some (.error .key) := by
  decide +kernel

/-- a linked mesh without skin takes its mesh from the default skin -/
def defaultLink : J := Sample.doc [root] [slot "s" "root" [("attachment", txt "m")]]
  [("default", obj [("s", obj [("m", mesh "d/m")])]),
   ("blue", obj [("s", obj [("m", obj [("type", txt "linkedmesh"), ("path", txt "blue/m"), ("parent", txt "m")])])])] [("walk", obj [])]

/-- C50 is false of the code for linked meshes that name no skin (the default skin): they stay linked meshes. -/
theorem c50_counterexample_default : (Sample.load defaultLink).map (fun e => linksOf (eraseSkins [s!!"default"] true e).2) =
    some [("blue", [(.linked, none)])] := by decide +kernel

/-! ### Odd names and failed calls -/

theorem called_of {j : J} (h : properB j = true) {e : Editor Rat} (he : Sample.load j = some e) : Called e := by
  unfold Sample.load at he
  cases hl : Editor.load j with
  | error x => rw [hl] at he; cases he
  | ok e' =>
    rw [hl] at he
    injection he with he; subst he
    exact .load (proper_of _ h) hl

/-- a slot with an odd name, shown with the attachment "m" that it does not have; an image in two skins -/
def odd (anims : List (String × J)) : J := Sample.doc [root] [slot "x_SLOT" "root" [("attachment", txt "m")], slot "s" "root" [("attachment", txt "a")]]
  [("default", obj [("x_SLOT", obj [("k", region "i")])]), ("red", obj [("s", obj [("a", region "i")])])] anims

/-- a case of `c51_reported_partial` with odd names, after a call that failed: the image is still used and not reported -/
example : (Sample.load (odd [])).map (fun e => let f := (eraseSkins [s!!"grey"] false e).2
      (erased (eraseSkins [s!!"grey"] false e), erased (eraseSkins [s!!"red"] true f))) = some (.error .editor, .ok []) := by decide +kernel

/-- a drawOrder offset that names an unknown slot -/
def oddDraw : J := odd [("run", obj [("drawOrder", .list [obj [("offsets", .list [obj [("slot", txt "zz"), ("offset", .int 1)]])]])])]

/-- C51 is false of the code after a cleaning that failed half-way on a slot with an odd name: the image "i" is reported although
the default skin still uses it. -/
theorem c51_counterexample : (Sample.load oddDraw).map (fun e => let f := (clean e).2
      (outcome (clean e), erased (eraseSkins [s!!"red"] true f))) = some (.error .value, .ok [some "i"]) ∧
    (Sample.load oddDraw).map (fun e => skinsOf (eraseSkins [s!!"red"] true (clean e).2).2) =
      some [("default", [("x_SLOT", [("k", .region, some "i")])])] := by decide +kernel

example : properB oddDraw = true ∧ properB (odd []) = true := by decide +kernel

end examples

end Editor
end Spine
