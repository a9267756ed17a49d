import Verif.Lemmas.Reopen
import Verif.Lemmas.Weak
/- When `erase_skins` succeeds, and which images it reports. -/
set_option linter.unusedSectionVars false
set_option linter.unusedSimpArgs false
namespace Spine
open JVal Graph AnimData
variable {F : Type} [PyRt F]

/-! ## Vocabulary -/

/-- the attachment itself says which image it shows, by a path or else a name -/
inductive Att.OwnImage (x : Att F) (i : Str) : Prop
  | path : x.kind ≠ .path → Dict.get? x.attrs s!!"path" = some (.str i) → i ≠ [] → Att.OwnImage x i
  | name : x.kind ≠ .path → x.NoText s!!"path" → Dict.get? x.attrs s!!"name" = some (.str i) → i ≠ [] → Att.OwnImage x i

/-- every mesh that a linked mesh of another skin takes from the skin `gone` is there -/
def MeshesFound (a : AnimData F) (n : Str) (gone : Skin F) : Prop :=
  ∀ s ∈ a.skins, s.name ≠ n → ∀ slot key x, s.Has slot key x → x.LinksTo n → ∃ p, gone.At slot key p

/-! ## Proofs -/

namespace AnimData

theorem mapMut_fails {α : Type} {P : Err → Prop} {f : α → Res α Unit} {l : List α} (hf : ∀ x ∈ l, ∀ z, (f x).1 = .error z → P z) {z : Err}
    (h : (mapMut f l).1 = .error z) : P z := by
  induction l with
  | nil => cases h
  | cons x l ih =>
    rw [mapMut] at h
    generalize hx : f x = q at h
    obtain ⟨q1, y⟩ := q
    cases q1 with
    | error w =>
      simp only [Except.error.injEq] at h
      subst h
      exact hf x (by simp) w (by rw [hx])
    | ok u =>
      simp only at h
      exact ih (fun y hy => hf y (by simp [hy])) h

theorem mapMutD_fails {α : Type} {P : Err → Prop} {f : Str → α → Res α Unit} {d : Dict α} (hf : ∀ p ∈ d, ∀ z, (f p.1 p.2).1 = .error z → P z)
    {z : Err} (h : (mapMutD f d).1 = .error z) : P z := by
  unfold mapMutD at h
  exact mapMut_fails (fun p hp z h => hf p hp z h) h

theorem relinkAtt_fails {gone : Skin F} {n slot key : Str} {x : Att F} {z : Err} (h : (relinkAtt gone n slot key x).1 = .error z) : z = .key := by
  unfold relinkAtt at h
  split at h
  · split at h
    · simpa using h.symm
    · split at h
      · simpa using h.symm
      · cases h
  · cases h

theorem relinkSkin_fails {gone : Skin F} {n : Str} {s : Skin F} {z : Err} (h : (relinkSkin gone n s).1 = .error z) : z = .key := by
  unfold relinkSkin at h
  split at h
  · cases h
  · exact mapMutD_fails (P := fun z => z = .key) (fun p _ z h => mapMutD_fails (P := fun z => z = .key) (fun q _ z h => relinkAtt_fails h) h) h

theorem relink_total {gone : Skin F} {n : Str} {a : AnimData F} (h : MeshesFound a n gone) :
    ∃ sk, mapMut (relinkSkin gone n) a.skins = (.ok (), sk) := by
  refine mapMut_exists ?_
  intro s hs
  unfold relinkSkin
  split
  · exact ⟨s, rfl⟩
  · rename_i hn
    obtain ⟨m, hm⟩ : ∃ m, mapMutD (fun slot e => mapMutD (fun key x => relinkAtt gone n slot key x) e) s.attachments = (.ok (), m) := by
      refine mapMutD_exists ?_
      intro p hp
      refine mapMutD_exists ?_
      intro q hq
      unfold relinkAtt
      split
      · rename_i hl
        obtain ⟨y, d, hd, hy⟩ := h s hs hn p.1 q.1 q.2 ⟨p.2, hp, hq⟩ ((linksTo_iff _ _).1 hl)
        rw [hd]
        simp only [hy]
        exact ⟨_, rfl⟩
      · exact ⟨_, rfl⟩
    exact ⟨{ s with attachments := m }, by simp only [hm]⟩

/-- the texts of an attachment that may show an image -/
theorem good_texts {x : Att F} (h : Att.Good x) (hp : x.kind ≠ .path) {k : Str} (hk : k ∈ [s!!"name", s!!"path"]) :
    ∃ o, x.strAttr k = .ok o ∧ ∀ t, o = some t ↔ Dict.get? x.attrs k = some (.str t) := by
  have : k ∈ Dict.keys x.attrs := by
    rw [h.keys]
    simp only [List.mem_cons, List.not_mem_nil, or_false] at hk
    rcases h.kind with e | ⟨e, _⟩ | ⟨e, _⟩ | ⟨e, _⟩
    · rw [e]; rcases hk with rfl | rfl <;> (simp only [AttKind.cls, regionCls]; decide)
    · rw [e]; rcases hk with rfl | rfl <;> (simp only [AttKind.cls, meshCls]; decide)
    · rw [e]; rcases hk with rfl | rfl <;> (simp only [AttKind.cls, linkedMeshCls]; decide)
    · exact absurd e hp
  obtain ⟨v, hv⟩ := (Dict.get?_isSome_iff _ _).2 this
  unfold Att.strAttr
  rw [hv]
  rcases h.sane.text k (by simpa [or_comm] using hk) v hv with rfl | ⟨t, rfl⟩
  · exact ⟨none, rfl, by simp⟩
  · exact ⟨some t, rfl, by simp⟩

/-- what one attachment contributes to the images that are candidates for the report -/
theorem goneOf_total {x : Att F} (h : Att.Good x) :
    ∃ l, goneOf x = .ok l ∧ ∀ i, i ≠ [] → ((.image (some i) ∈ l ∨ .region i ∈ l) ↔ x.OwnImage i) := by
  by_cases hp : x.kind = .path
  · have : Dict.get? x.attrs s!!"path" = none := by
      cases hg : Dict.get? x.attrs s!!"path" with
      | none => rfl
      | some v =>
        have : s!!"path" ∈ Dict.keys x.attrs := (Dict.get?_isSome_iff _ _).1 ⟨v, hg⟩
        rw [h.keys, hp] at this
        simp only [AttKind.cls, skinPathCls] at this
        exact absurd this (by decide)
    unfold goneOf
    rw [hp]; simp only [this]
    refine ⟨_, rfl, ?_⟩
    intro i _
    refine ⟨fun h => by simp at h, fun h => ?_⟩
    cases h with
    | path h _ _ => exact absurd hp h
    | name h _ _ _ => exact absurd hp h
  · obtain ⟨p, h1, h2⟩ := good_texts h hp (k := s!!"path") (by simp)
    obtain ⟨m, h3, h4⟩ := good_texts h hp (k := s!!"name") (by simp)
    have own : ∀ i, i ≠ [] → (x.OwnImage i ↔ p = some i ∨ ((∀ t, p = some t → t = []) ∧ m = some i)) := by
      intro i hi
      constructor
      · intro h
        cases h with
        | path _ h _ => exact .inl ((h2 i).2 h)
        | name _ ht h _ => exact .inr ⟨fun t e => ht t ((h2 t).1 e), (h4 i).2 h⟩
      · rintro (h | ⟨ht, h⟩)
        · exact .path hp ((h2 i).1 h) hi
        · exact .name hp (fun t e => ht t ((h2 t).2 e)) ((h4 i).1 h) hi
    have kinds : x.kind = .region ∨ x.kind = .mesh ∨ x.kind = .linked := by
      rcases h.kind with e | ⟨e, _⟩ | ⟨e, _⟩ | ⟨e, _⟩
      · exact .inl e
      · exact .inr (.inl e)
      · exact .inr (.inr e)
      · exact absurd e hp
    unfold goneOf
    rcases kinds with e | e | e <;> rw [e] <;> simp only [h1, h3, bind, Except.bind] <;> clear h1 h2 h3 h4 e
    all_goals
      rcases p with _ | p
      · rcases m with _ | m
        all_goals
          refine ⟨_, rfl, fun i hi => ?_⟩
          rw [own i hi]; simp [pyOr, eq_comm]
      · rcases p with _ | ⟨c, p⟩
        · rcases m with _ | m
          all_goals
            refine ⟨_, rfl, fun i hi => ?_⟩
            rw [own i hi]; simp [pyOr, eq_comm, hi]
        · refine ⟨_, rfl, fun i hi => ?_⟩
          rw [own i hi]; simp [pyOr, eq_comm]

theorem removedImages_total {s : Skin F} (h : Skin.Good s) : ∃ r, removedImages s = .ok r := by
  unfold removedImages
  obtain ⟨l, hl⟩ : ∃ l, mapE goneOf (skinAtts s) = .ok l := by
    refine GShape.mapE_isOk ?_
    intro x hx
    unfold skinAtts at hx
    obtain ⟨p, hp, hx⟩ := List.mem_flatMap.1 hx
    obtain ⟨q, hq, rfl⟩ := List.mem_map.1 hx
    exact (goneOf_total (h p hp q hq)).imp (fun _ h => h.1)
  rw [hl]
  exact ⟨_, rfl⟩

/-- one removal: it succeeds exactly when the skin exists and the linked meshes find their meshes -/
theorem removeSkin_total {n : Str} {a : AnimData F} (hg : ∀ s ∈ a.skins, ∃ r, removedImages s = .ok r) :
    (∃ r a', removeSkin n a = (.ok r, a')) ↔ ∃ gone, IsSkin a.skins n gone ∧ MeshesFound a n gone := by
  constructor
  · rintro ⟨r, a', h⟩
    obtain ⟨gone, sk, h1, h2, h3, h4⟩ := removeSkin_ok h
    refine ⟨gone, (getSkin_some a n gone).1 h1, ?_⟩
    intro s hs hn slot key x ⟨d, hd, hx⟩ hl
    obtain ⟨s', _, hr⟩ := h2.left hs
    rcases hr.2 with ⟨e, _⟩ | ⟨_, hr⟩
    · exact absurd e hn
    · obtain ⟨p', _, _, hr⟩ := hr.left hd
      obtain ⟨q', _, _, hr⟩ := hr.left hx
      rcases AttAfter.of_relinked hr with ⟨h, _⟩ | ⟨_, p, hp, _⟩
      · exact absurd hl h
      · exact ⟨p, hp⟩
  · rintro ⟨gone, h1, h2⟩
    have h1 := (getSkin_some a n gone).2 h1
    obtain ⟨sk, h3⟩ := relink_total h2
    obtain ⟨r, h4⟩ := hg gone (getSkin_mem h1).1
    refine ⟨r, { a with animations := dmap (dropDeform n) a.animations, skins := sk.filter (fun s => s.name ≠ n) }, ?_⟩
    unfold removeSkin
    rw [h1]
    simp only [h3, h4]

theorem removeSkin_fails {n : Str} {a : AnimData F} (hg : ∀ s ∈ a.skins, ∃ r, removedImages s = .ok r) {z : Err} (h : (removeSkin n a).1 = .error z) :
    ((∀ s ∈ a.skins, s.name ≠ n) ∧ z = .editor) ∨ ((∃ gone, IsSkin a.skins n gone ∧ ¬ MeshesFound a n gone) ∧ z = .key) := by
  by_cases hn : ∀ s ∈ a.skins, s.name ≠ n
  · have : getSkin a n = none := by
      unfold getSkin
      rw [List.find?_eq_none]
      intro s hs; simpa using hn s hs
    unfold removeSkin at h
    rw [this] at h
    injection h with h
    exact .inl ⟨hn, h.symm⟩
  · right
    have : ∃ gone, getSkin a n = some gone := by
      cases hs : getSkin a n with
      | some s => exact ⟨s, rfl⟩
      | none =>
        unfold getSkin at hs
        rw [List.find?_eq_none] at hs
        exact absurd (fun s h => by simpa using hs s h) hn
    obtain ⟨gone, hs⟩ := this
    have hgone := (getSkin_some a n gone).1 hs
    refine ⟨⟨gone, hgone, fun hm => ?_⟩, ?_⟩
    · obtain ⟨r, a', h'⟩ := (removeSkin_total hg).2 ⟨gone, hgone, hm⟩
      rw [h'] at h; cases h
    · unfold removeSkin at h
      rw [hs] at h
      simp only at h
      generalize hq : (mapMut (relinkSkin gone n) a.skins).1 = q at h
      cases q with
      | error w =>
        injection h with h
        rw [← h]
        exact mapMut_fails (P := fun z => z = .key) (fun s _ z h => relinkSkin_fails h) hq
      | ok u =>
        obtain ⟨r, h4⟩ := hg gone (getSkin_mem hs).1
        simp only [h4] at h
        cases h

/-! ### Reported images -/

theorem mem_mapE {α β : Type} {f : α → Except Err β} : ∀ {l : List α} {m : List β}, mapE f l = .ok m → ∀ y, y ∈ m ↔ ∃ x ∈ l, f x = .ok y := by
  intro l
  induction l with
  | nil => intro m h y; injection h with h; subst h; simp
  | cons x l ih =>
    intro m h y
    rw [mapE] at h
    cases hx : f x with
    | error z => rw [hx] at h; cases h
    | ok v =>
      rw [hx] at h
      cases hl : mapE f l with
      | error z => rw [hl] at h; cases h
      | ok w =>
        rw [hl] at h
        injection h with h; subst h
        rw [List.mem_cons, ih hl y]
        constructor
        · rintro (rfl | ⟨x', h1, h2⟩)
          · exact ⟨x, by simp, hx⟩
          · exact ⟨x', by simp [h1], h2⟩
        · rintro ⟨x', h1, h2⟩
          rcases List.mem_cons.1 h1 with rfl | h1
          · rw [hx] at h2; injection h2 with h2; exact .inl h2.symm
          · exact .inr ⟨x', h1, h2⟩

theorem removedImages_reports {s : Skin F} (hs : Skin.Good s) {imgs : List (Option Str)} {regs : List Str} (h : removedImages s = .ok (imgs, regs))
    {i : Str} (hi : i ≠ []) : some i ∈ imgs ++ regs.map some ↔ ∃ slot key x, s.Has slot key x ∧ x.OwnImage i := by
  unfold removedImages at h
  obtain ⟨l, hl, h⟩ := bindOk h
  simp only [pure, Except.pure, Except.ok.injEq, Prod.mk.injEq] at h
  obtain ⟨rfl, rfl⟩ := h
  have e1 : some i ∈ (l.flatten.filterMap (fun | .image i => some i | .region _ => none)) ++
      (l.flatten.filterMap (fun | .region i => some i | .image _ => none)).map some ↔ ∃ m ∈ l, .image (some i) ∈ m ∨ .region i ∈ m := by
    simp only [List.mem_append, List.mem_map, List.mem_filterMap, List.mem_flatten, Option.some.injEq, exists_eq_right]
    constructor
    · rintro (⟨g, ⟨m, h1, h2⟩, h3⟩ | ⟨g, ⟨m, h1, h2⟩, h3⟩)
      · cases g with
        | image j => simp only [Option.some.injEq] at h3; subst h3; exact ⟨m, h1, .inl h2⟩
        | region j => simp at h3
      · cases g with
        | image j => simp at h3
        | region j => simp only [Option.some.injEq] at h3; subst h3; exact ⟨m, h1, .inr h2⟩
    · rintro ⟨m, h1, h2 | h2⟩
      · exact .inl ⟨_, ⟨m, h1, h2⟩, rfl⟩
      · exact .inr ⟨_, ⟨m, h1, h2⟩, rfl⟩
  refine Iff.trans e1 ?_
  constructor
  · rintro ⟨m, hm, h⟩
    obtain ⟨x, hx, hg⟩ := (mem_mapE hl m).1 hm
    unfold skinAtts at hx
    obtain ⟨p, hp, hx⟩ := List.mem_flatMap.1 hx
    obtain ⟨q, hq, rfl⟩ := List.mem_map.1 hx
    obtain ⟨m', h1, h2⟩ := goneOf_total (hs p hp q hq)
    rw [hg] at h1; injection h1 with h1; subst h1
    exact ⟨p.1, q.1, q.2, ⟨p.2, hp, hq⟩, (h2 i hi).1 h⟩
  · rintro ⟨slot, key, x, ⟨d, hd, hx⟩, ho⟩
    obtain ⟨m, h1, h2⟩ := goneOf_total (hs _ hd _ hx)
    refine ⟨m, (mem_mapE hl m).2 ⟨x, ?_, h1⟩, (h2 i hi).2 ho⟩
    unfold skinAtts
    exact List.mem_flatMap.2 ⟨_, hd, List.mem_map.2 ⟨_, hx, rfl⟩⟩

/-! ### Several removals -/

/-- the first skin of another name, before and after one removal -/
theorem removeSkin_isSkin {n m : Str} {a a' : AnimData F} {r : List (Option Str) × List Str} (h : removeSkin n a = (.ok r, a')) (hm : m ≠ n) :
    ∃ gone, IsSkin a.skins n gone ∧ (∀ s', IsSkin a'.skins m s' → ∃ s, IsSkin a.skins m s ∧ SkinRel gone n s s') ∧
      (∀ s, IsSkin a.skins m s → ∃ s', IsSkin a'.skins m s' ∧ SkinRel gone n s s') := by
  obtain ⟨gone, hg, _, hsk, _⟩ := Editor.removeSkin_skins h
  have hfind : ∀ l : List (Skin F), (l.filter (fun s => s.name ≠ n)).find? (fun s => s.name == m) = l.find? (fun s => s.name == m) := by
    intro l
    rw [List.find?_filter]
    congr 1
    funext s
    by_cases h : s.name = m
    · simp [h, hm]
    · simp [h]
  refine ⟨gone, (getSkin_some _ _ _).1 hg, ?_, ?_⟩
  · intro s' hs'
    rw [← getSkin_some] at hs'
    obtain ⟨s, e, hr⟩ := hsk.find (p := fun s => s.name == m) (fun x y h => by rw [h.1]) hs'
    rw [hfind] at e
    exact ⟨s, (getSkin_some _ _ _).1 e, hr⟩
  · intro s hs
    have hs' := (getSkin_some _ _ _).2 hs
    obtain ⟨s1, h1, h2⟩ : ∃ s1, s1 ∈ a'.skins ∧ s1.name = m := by
      have hmem := (getSkin_mem hs').1
      have hname := (getSkin_mem hs').2
      obtain ⟨s1, h1, hr⟩ := hsk.left (List.mem_filter.2 ⟨hmem, by simp [hname, hm]⟩)
      exact ⟨s1, h1, hr.1.trans hname⟩
    have : ∃ s', getSkin a' m = some s' := by
      cases hc : getSkin a' m with
      | some s' => exact ⟨s', rfl⟩
      | none =>
        unfold getSkin at hc
        rw [List.find?_eq_none] at hc
        exact absurd h2 (by simpa using hc s1 h1)
    obtain ⟨s', hc⟩ := this
    obtain ⟨s0, e, hr⟩ := hsk.find (p := fun s => s.name == m) (fun x y h => by rw [h.1]) hc
    rw [hfind] at e
    have e : getSkin a m = some s0 := e
    rw [hs'] at e; injection e with e; subst e
    exact ⟨s', (getSkin_some _ _ _).1 hc, hr⟩

theorem relinked_own {p x : Att F} (hp : p.kind ≠ .path) (hx : x.kind ≠ .path) (i : Str) : (relinked p x).OwnImage i ↔ x.OwnImage i := by
  have ht := relinked_noText p x (k := s!!"path") (by simp)
  have hk : (relinked p x).kind = p.kind := rfl
  constructor
  · intro h
    cases h with
    | path _ e n => exact .path hx ((relinked_text p x (by simp) _).1 e) n
    | name _ q e n => exact .name hx (ht.1 q) ((relinked_text p x (by simp) _).1 e) n
  · intro h
    cases h with
    | path _ e n => exact .path (hk ▸ hp) ((relinked_text p x (by simp) _).2 e) n
    | name _ q e n => exact .name (hk ▸ hp) (ht.2 q) ((relinked_text p x (by simp) _).2 e) n

/-- an attachment after one removal, from the attachment before -/
theorem SkinRel.image {gone : Skin F} {n : Str} {s s' : Skin F} (h : SkinRel gone n s s') (I : Str → Att F → Prop)
    (hI : ∀ slot key x p, s.Has slot key x → x.LinksTo n → gone.Has slot key p → (I key (relinked p x) ↔ I key x)) :
    (∃ slot key x, s'.Has slot key x ∧ I key x) ↔ ∃ slot key x, s.Has slot key x ∧ I key x := by
  constructor
  · rintro ⟨slot, key, x', hx', ho⟩
    obtain ⟨x, hx, rfl | ⟨hl, p, hp, rfl⟩⟩ := SkinRel.has h hx'
    · exact ⟨slot, key, _, hx, ho⟩
    · exact ⟨slot, key, x, hx, (hI slot key x p hx hl hp).1 ho⟩
  · rintro ⟨slot, key, x, hx, ho⟩
    rcases h.2 with ⟨_, rfl⟩ | ⟨_, hr⟩
    · exact ⟨slot, key, x, hx, ho⟩
    · obtain ⟨d, hd, hx⟩ := hx
      obtain ⟨⟨slot', d'⟩, hd', e1, hr⟩ := hr.left hd
      obtain ⟨⟨key', x'⟩, hx', e2, hr⟩ := hr.left hx
      simp only at e1 e2 hr
      subst e1 e2
      refine ⟨slot', key', x', ⟨d', hd', hx'⟩, ?_⟩
      cases hr with
      | same _ => exact ho
      | @copy d0 p hl h1 h2 => exact (hI _ _ x p ⟨d, hd, hx⟩ ((linksTo_iff _ _).1 hl) ⟨d0, Dict.mem_of_get? h1, Dict.mem_of_get? h2⟩).2 ho

end AnimData

namespace Editor
variable {e e' : Editor F}

/-- the candidates for the report, after any number of removals -/
theorem removeSkins_reports {s : SpineDoc F} {names : List Str} : ∀ {a a' : AnimData F} {imgs : List (Option Str)} {regs : List Str}, Kept s a →
    removeSkins names a = (.ok (imgs, regs), a') → ∀ {i : Str}, i ≠ [] →
    (some i ∈ imgs ++ regs.map some ↔ ∃ n ∈ names, ∃ k, IsSkin a.skins n k ∧ ∃ slot key x, k.Has slot key x ∧ x.OwnImage i) := by
  induction names with
  | nil =>
    intro a a' imgs regs _ h i _
    simp only [removeSkins, Prod.mk.injEq, Except.ok.injEq] at h
    obtain ⟨⟨rfl, rfl⟩, _⟩ := h
    simp
  | cons n ns ih =>
    intro a a' imgs regs hk h i hi
    have hnd := (List.nodup_cons.1 (removeSkins_facts h).2.1).1
    obtain ⟨i1, s1, is, rs, a1, h1, h2, e⟩ := removeSkins_cons h
    simp only [Prod.mk.injEq] at e
    obtain ⟨rfl, rfl⟩ := e
    have h3 := ih (kept_removeSkin hk h1) h2 hi
    obtain ⟨gone, sk, g1, g2, g3, g4⟩ := removeSkin_ok h1
    have hgone := (getSkin_some _ _ _).1 g1
    have hm := getSkin_mem g1
    have h4 := removedImages_reports (hk.good.skins gone hm.1) g3 hi
    have e1 : some i ∈ (i1 ++ is) ++ (s1 ++ rs).map some ↔ some i ∈ i1 ++ s1.map some ∨ some i ∈ is ++ rs.map some := by
      simp only [List.mem_append, List.map_append]; grind
    rw [e1, h3, h4]
    have link : ∀ m ∈ ns, (∃ k, IsSkin a1.skins m k ∧ ∃ slot key x, k.Has slot key x ∧ x.OwnImage i) ↔
        ∃ k, IsSkin a.skins m k ∧ ∃ slot key x, k.Has slot key x ∧ x.OwnImage i := by
      intro m hmn
      obtain ⟨gone', q0, q1, q2⟩ := removeSkin_isSkin h1 (m := m) (fun e => hnd (e ▸ hmn))
      have : gone' = gone := by
        have := (getSkin_some _ _ _).2 q0
        rw [g1] at this; injection this with this; exact this.symm
      subst this
      have img : ∀ k k', k ∈ a.skins → SkinRel gone' n k k' → ((∃ slot key x, k'.Has slot key x ∧ x.OwnImage i) ↔
          ∃ slot key x, k.Has slot key x ∧ x.OwnImage i) := by
        intro k k' hkm hr
        refine SkinRel.image hr (fun _ x => x.OwnImage i) ?_
        intro slot key x p hx hl hp
        refine relinked_own (hk.noPath k hkm gone' hm.1 slot key x p hx (hm.2 ▸ hl) hp) ?_ i
        rw [hl.1]; decide
      constructor
      · rintro ⟨k', hk', h⟩
        obtain ⟨k, hkk, hr⟩ := q1 k' hk'
        exact ⟨k, hkk, (img k k' (getSkin_mem ((getSkin_some _ _ _).2 hkk)).1 hr).1 h⟩
      · rintro ⟨k, hkk, h⟩
        obtain ⟨k', hk', hr⟩ := q2 k hkk
        exact ⟨k', hk', (img k k' (getSkin_mem ((getSkin_some _ _ _).2 hkk)).1 hr).2 h⟩
    constructor
    · rintro (h | ⟨m, hm, h⟩)
      · exact ⟨n, by simp, gone, hgone, h⟩
      · exact ⟨m, by simp [hm], (link m hm).1 h⟩
    · rintro ⟨m, hm', hown⟩
      rcases List.mem_cons.1 hm' with em | hm'
      · rw [em] at hown
        obtain ⟨k, hk, hown⟩ := hown
        have := (getSkin_some _ _ _).2 hk
        rw [g1] at this; injection this with this; rw [this]
        exact .inl hown
      · exact .inr ⟨m, hm', (link m hm').2 hown⟩

/-- the images of the attachments that remain, after any number of removals -/
theorem removeSkins_images {names : List Str} : ∀ {a a' : AnimData F} {r : List (Option Str) × List Str},
    removeSkins names a = (.ok r, a') → ∀ {i : Str},
    ((∃ slot key x, a'.HasAtt slot key x ∧ ImageName key x i) ↔
      ∃ k ∈ a.skins, k.name ∉ names ∧ ∃ slot key x, k.Has slot key x ∧ ImageName key x i) := by
  have e : ∀ (a : AnimData F) (i : Str), (∃ slot key x, a.HasAtt slot key x ∧ ImageName key x i) ↔
      ∃ k ∈ a.skins, ∃ slot key x, k.Has slot key x ∧ ImageName key x i := by
    intro a i
    constructor
    · rintro ⟨slot, key, x, ⟨k, hk, d, hd, hx⟩, h⟩; exact ⟨k, hk, slot, key, x, ⟨d, hd, hx⟩, h⟩
    · rintro ⟨k, hk, slot, key, x, ⟨d, hd, hx⟩, h⟩; exact ⟨slot, key, x, ⟨k, hk, d, hd, hx⟩, h⟩
  induction names with
  | nil =>
    intro a a' r h i
    simp only [removeSkins, Prod.mk.injEq] at h
    rw [← h.2, e]
    simp
  | cons n ns ih =>
    intro a a' r h i
    obtain ⟨i1, s1, is, rs, a1, h1, h2, _⟩ := removeSkins_cons h
    rw [ih h2]
    obtain ⟨gone, hg, _, hsk, _⟩ := removeSkin_skins h1
    have img : ∀ k k', SkinRel gone n k k' → ((∃ slot key x, k'.Has slot key x ∧ ImageName key x i) ↔
        ∃ slot key x, k.Has slot key x ∧ ImageName key x i) :=
      fun k k' hr => SkinRel.image hr (fun key x => ImageName key x i) (fun slot key x p _ _ _ => relinked_image p x)
    constructor
    · rintro ⟨k', hk', hn, h⟩
      obtain ⟨k, hk, hr⟩ := hsk.right hk'
      rw [List.mem_filter] at hk
      refine ⟨k, hk.1, ?_, (img k k' hr).1 h⟩
      rw [← hr.1, List.mem_cons, not_or]
      refine ⟨?_, hn⟩
      rw [hr.1]; simpa using hk.2
    · rintro ⟨k, hk, hn, h⟩
      rw [List.mem_cons, not_or] at hn
      obtain ⟨k', hk', hr⟩ := hsk.left (List.mem_filter.2 ⟨hk, by simpa using hn.1⟩)
      exact ⟨k', hk', by rw [hr.1]; exact hn.2, (img k k' hr).2 h⟩

/-- the image nodes of a graph just built -/
theorem image_fresh {e : Editor F} (hb : ∀ b ∈ e.data.bones, Bone.Good b) (hdi : e.data.Distinct) (hx : e.data.SaneAtts)
    (hsb : ∀ slot k x, e.data.HasAtt slot k x → ∃ s ∈ e.data.slots, s.name = slot)
    (hg : SpineNodes.create e.toJson = .ok e.graph) (i : Str) :
    HasNode e.graph (graphId .image i) ↔ ∃ slot k x, e.data.HasAtt slot k x ∧ ImageName k x i := by
  have hg' : SpineNodes.create e.doc.toJson = .ok e.graph := hg
  obtain ⟨sh, h1, h2⟩ := GShape.create_built hg'
  have hsh := GShape.read_toJson e.doc hb hdi hx h1
  rw [h2.has_image]
  constructor
  · rintro ⟨s, hs, a, ha, rfl⟩
    obtain ⟨v, hv, e1, _, _, e4⟩ := hsh.slots.right hs
    obtain ⟨x, hx, _, hi⟩ := (e4 a.1 a.2.1 a.2.2).1 ha
    exact ⟨_, _, x, hx, hi⟩
  · rintro ⟨slot, k, x, h, hi⟩
    obtain ⟨v, hv, hvn⟩ := hsb slot k x h
    obtain ⟨s, hs, e1, _, _, e4⟩ := hsh.slots.left hv
    subst hvn
    exact ⟨s, hs, _, (e4 k i _).2 ⟨x, h, rfl, hi⟩, rfl⟩

theorem Open.kept (h : Open e) : Kept e.doc e.data := ⟨h.good, h.refs, h.noPath⟩

/-- the graph can be rebuilt after removing skins -/
theorem Open.create_after {names : List Str} {a : AnimData F} {r : List (Option Str) × List Str} (h : Open e)
    (hr : removeSkins names e.data = (.ok r, a)) : ∃ g, SpineNodes.create (e.withData a).toJson = .ok g := by
  have hk := removeSkins_kept e.doc.version.is38 hr
  have hik : ∀ x ∈ a.ik, ∃ y, GShape.readIk (ikCls.toJson e.doc.version.is38 x) = .ok y := by
    intro x hx
    rw [hk.iks] at hx
    obtain ⟨p, _, h1, y, h2, _⟩ := h.giks.right hx
    exact ⟨y, h1 ▸ h2⟩
  have bones : ∀ b ∈ a.bones, Bone.Good b := by rw [hk.bones]; exact h.good.bones
  have bones0 : a.bones ≠ [] := by rw [hk.bones]; exact h.bones0
  obtain ⟨sh, h1, h2⟩ := GShape.read_isOk (e.withData a).doc bones bones0 (hk.sane h.sync.sane) hik
  have hsh := GShape.read_toJson (e.withData a).doc bones (hk.distinct h.sync.distinct) (hk.sane h.sync.sane) h1
  have wf := h.sync.core.wf
  have e1 : (e.withData a).doc.data = a := rfl
  have e2 : e.doc.data = e.data := rfl
  have sb := hsh.bones
  have ss := hsh.slots
  rw [e1, hk.bones] at sb
  rw [e1, hk.slots] at ss
  rw [e1, hk.iks] at h2
  have nb : (e.data.bones.map (·.name)).Nodup := by
    refine All₂.nodup_map h.gbones (nodesOf_ids_nodup wf .bone) ?_
    intro x y x' y' hx hx' e; rw [hx.1, hx'.1, e]
  have ns : (e.data.slots.map (·.name)).Nodup := by
    refine All₂.nodup_map h.sync.slots (nodesOf_ids_nodup wf .slot) ?_
    intro x y x' y' hx hx' e; rw [hx.1, hx'.1, e]
  suffices ho : GShape.Ok sh by
    obtain ⟨g, hg, _⟩ := GShape.create_ok h1 ho
    exact ⟨g, hg⟩
  refine ⟨?_, ?_, ?_, ?_⟩
  · exact All₂.nodup_map sb nb (fun x y x' y' hx hx' e => by rw [← hx.1, ← hx'.1, e])
  · exact All₂.nodup_map ss ns (fun x y x' y' hx hx' e => by rw [← hx.1, ← hx'.1, e])
  · have hc : All₂ (fun (p : Str × Int × JVal F) (y : GIk F) => p.1 = graphId .ik y.name) (nodesOf e.graph .ik) sh.iks := by
      refine All₂.comp h.giks h2 ?_
      rintro p x y _ _ ⟨e1, y', h1, h2⟩ h3
      have h3 : GShape.readIk (ikCls.toJson e.doc.version.is38 x) = .ok y := h3
      rw [e1, h3] at h1
      injection h1 with h1; rw [h1]; exact h2
    refine All₂.nodup_map hc (nodesOf_ids_nodup wf .ik) ?_
    intro x y x' y' hx hx' e; rw [hx, hx', e]
  · intro b hb
    obtain ⟨v, hv, e1, _, e3⟩ := sb.right hb
    rw [e1, e3]; exact h.noSelf v hv

end Editor
end Spine
