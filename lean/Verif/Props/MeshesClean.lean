import Verif.Props.Meshes
import Verif.Props.Clean
/- Property C96: linked meshes keep their meshes when the animation is cleaned. -/
set_option linter.unusedSectionVars false
namespace Spine
namespace Meshes
open Editor AnimData
variable {F : Type} [PyRt F] {e e' : Editor F} {ids atts : List Str}

theorem isSkin_map {f : Skin F → Skin F} (hf : ∀ s, (f s).name = s.name) {l : List (Skin F)} {n : Str} {s' : Skin F}
    (h : IsSkin (l.map f) n s') : ∃ s, IsSkin l n s ∧ s' = f s := by
  obtain ⟨p, q, hpq, hn, hp⟩ := h
  induction l generalizing p with
  | nil => simp at hpq
  | cons x l ih =>
    cases p with
    | nil =>
      simp only [List.map_cons, List.nil_append, List.cons.injEq] at hpq
      exact ⟨x, ⟨[], l, rfl, by rw [← hf, hpq.1, hn], by simp⟩, hpq.1.symm⟩
    | cons y p =>
      simp only [List.map_cons, List.cons_append, List.cons.injEq] at hpq
      obtain ⟨s, ⟨p', q', rfl, h1, h2⟩, h3⟩ := ih p hpq.2 (fun z hz => hp z (by simp [hz]))
      refine ⟨s, ⟨x :: p', q', rfl, h1, ?_⟩, h3⟩
      intro z hz
      rcases List.mem_cons.1 hz with rfl | hz
      · rw [← hf, hpq.1]; exact hp y (by simp)
      · exact h2 z hz

theorem isSkin_map' {f : Skin F → Skin F} (hf : ∀ s, (f s).name = s.name) {l : List (Skin F)} {n : Str} {s : Skin F}
    (h : IsSkin l n s) : IsSkin (l.map f) n (f s) := by
  obtain ⟨p, q, rfl, hn, hp⟩ := h
  refine ⟨p.map f, q.map f, by simp, by rw [hf, hn], ?_⟩
  intro x hx
  obtain ⟨y, hy, rfl⟩ := List.mem_map.1 hx
  rw [hf]; exact hp y hy

theorem get?_keep {α : Type} (d : Dict α) (l : List Str) (k : Str) :
    Dict.get? (d.filter (fun p => p.1 ∉ l)) k = if k ∈ l then none else Dict.get? d k := by
  induction d with
  | nil => simp [Dict.get?]
  | cons p d ih =>
    obtain ⟨j, v⟩ := p
    by_cases hj : j ∈ l
    · rw [List.filter_cons, if_neg (by simpa using hj), ih]
      split
      · rfl
      · rename_i hk
        have : j ≠ k := by rintro rfl; exact hk hj
        simp only [Dict.get?, if_neg this]
    · rw [List.filter_cons, if_pos (by simpa using hj)]
      simp only [Dict.get?, ih]
      by_cases hjk : j = k
      · subst hjk; simp [hj]
      · simp [hjk]

theorem at_cut {s : Skin F} {slot key : Str} {x : Att F} :
    (cutSkin ids atts s).At slot key x ↔ s.At slot key x ∧ slot ∉ ids ∧ key ∉ atts := by
  unfold Skin.At cutSkin
  simp only [get?_dmap, get?_keep]
  constructor
  · rintro ⟨d, h1, h2⟩
    split at h1
    · simp at h1
    · rename_i hs
      rw [Option.map_eq_some_iff] at h1
      obtain ⟨d0, h1, rfl⟩ := h1
      rw [get?_keep] at h2
      split at h2
      · simp at h2
      · rename_i hk
        exact ⟨⟨d0, h1, h2⟩, hs, hk⟩
  · rintro ⟨⟨d, h1, h2⟩, hs, hk⟩
    exact ⟨_, by rw [if_neg hs, h1]; rfl, by rw [get?_keep, if_neg hk]; exact h2⟩

theorem cut_name (s : Skin F) : (cutSkin ids atts s).name = s.name := rfl

theorem at_clean (hr : Ran e) (h : clean e = (.ok (ids, atts), e')) {n slot key : Str} {x : Att F} :
    (∃ s, IsSkin e'.data.skins n s ∧ s.At slot key x) ↔
      (∃ s, IsSkin e.data.skins n s ∧ s.At slot key x) ∧ SlotShown e.data slot ∧ ¬ Unneeded e.data key := by
  rw [result_skins hr.sync h]
  constructor
  · rintro ⟨s', hs', hx⟩
    obtain ⟨s, hs, rfl⟩ := isSkin_map cut_name hs'
    obtain ⟨hx0, _, _⟩ := at_cut.1 hx
    refine ⟨⟨s, hs, hx0⟩, ?_⟩
    have : e'.data.HasAtt slot key x := by
      refine hasAtt_of (n := n) ?_ hx
      rw [result_skins hr.sync h]; exact hs'
    exact ((c40_left_iff_partial hr h slot key x).1 this).2
  · rintro ⟨⟨s, hs, hx⟩, h1, h2⟩
    refine ⟨_, isSkin_map' cut_name hs, ?_⟩
    have : e'.data.HasAtt slot key x := (c40_left_iff_partial hr h slot key x).2 ⟨hasAtt_of hs hx, h1, h2⟩
    obtain ⟨s1, hs1, d, hd, hx1⟩ := this
    rw [result_skins hr.sync h] at hs1
    obtain ⟨s0, _, rfl⟩ := List.mem_map.1 hs1
    obtain ⟨_, h3, h4⟩ := mem_cutSkin.1 ⟨d, hd, hx1⟩
    exact at_cut.2 ⟨hx, h3, h4⟩

/-- nothing looks different after cleaning: what still has a look had that look before -/
theorem c96_same (hr : Ran e) (h : clean e = (.ok (ids, atts), e')) {n slot key : Str} {k : AttKind} {f : Str → JVal F}
    (hl : Looks e'.data.skins n slot key k f) : Looks e.data.skins n slot key k f := by
  induction hl with
  | plain hs hx hk =>
    obtain ⟨⟨s, hs, hx⟩, _⟩ := (at_clean hr h).1 ⟨_, hs, hx⟩
    exact .plain hs hx hk
  | linked hs hx hk hm hp _ ih =>
    obtain ⟨⟨s, hs, hx⟩, _⟩ := (at_clean hr h).1 ⟨_, hs, hx⟩
    exact .linked hs hx hk hm hp ih

/-- the names of the attachment and of the meshes it is made of, from the linked mesh to the mesh -/
inductive Made (skins : List (Skin F)) : Str → Str → Str → List Str → Prop
  | plain {n s slot key x} : IsSkin skins n s → s.At slot key x → x.kind ≠ .linked → Made skins n slot key [key]
  | linked {n s slot key x m p l} : IsSkin skins n s → s.At slot key x → x.kind = .linked → Source x m →
      x.attrs.val s!!"parent" = .str p → Made skins m slot p l → Made skins n slot key (key :: l)

theorem at_of_looks {skins : List (Skin F)} {n slot key : Str} {k : AttKind} {f : Str → JVal F} (h : Looks skins n slot key k f) :
    ∃ s, IsSkin skins n s ∧ ∃ x, s.At slot key x := by
  cases h with
  | plain hs hx => exact ⟨_, hs, _, hx⟩
  | linked hs hx => exact ⟨_, hs, _, hx⟩

/-- C96, exactly: after cleaning an attachment has its look if and only if its slot is shown and neither its own name nor
one of the names of the meshes it is made of is unneeded. -/
theorem c96_exact (hr : Ran e) (h : clean e = (.ok (ids, atts), e')) {n slot key : Str} {k : AttKind} {f : Str → JVal F}
    {l : List Str} (hl : Looks e.data.skins n slot key k f) (hm : Made e.data.skins n slot key l) :
    Looks e'.data.skins n slot key k f ↔ SlotShown e.data slot ∧ ∀ c ∈ l, ¬ Unneeded e.data c := by
  induction hl generalizing l with
  | @plain n s slot key x hs hx hk =>
    cases hm with
    | plain =>
      constructor
      · intro hl'
        obtain ⟨s', hs', x', hx'⟩ := at_of_looks hl'
        simpa using ((at_clean hr h).1 ⟨s', hs', hx'⟩).2
      · rintro ⟨h1, h2⟩
        obtain ⟨s', hs', hx'⟩ := (at_clean hr h).2 ⟨⟨s, hs, hx⟩, h1, h2 key (by simp)⟩
        exact .plain hs' hx' hk
    | linked hs' hx' hk' =>
      cases isSkin_unique hs hs'
      cases at_unique hx hx'
      exact absurd hk' hk
  | @linked n s slot key x m p k f hs hx hk hsrc hp hl ih =>
    cases hm with
    | plain hs' hx' hk' =>
      cases isSkin_unique hs hs'
      cases at_unique hx hx'
      exact absurd hk hk'
    | @linked _ _ _ _ _ m' p' l' hs' hx' hk' hsrc' hp' hm' =>
      cases isSkin_unique hs hs'
      cases at_unique hx hx'
      cases source_unique hsrc hsrc'
      rw [hp] at hp'
      simp only [JVal.str.injEq] at hp'
      subst hp'
      rw [List.forall_mem_cons]
      constructor
      · intro hl'
        generalize hff : link x f = ff at hl'
        cases hl' with
        | plain hs2 hx2 hk2 =>
          obtain ⟨⟨s3, hs3, hx3⟩, _⟩ := (at_clean hr h).1 ⟨_, hs2, hx2⟩
          cases isSkin_unique hs hs3
          cases at_unique hx hx3
          exact absurd hk hk2
        | @linked _ _ _ _ x2 m2 p2 _ f2 hs2 hx2 hk2 hsrc2 hp2 hl2 =>
          obtain ⟨⟨s3, hs3, hx3⟩, h1, h2⟩ := (at_clean hr h).1 ⟨_, hs2, hx2⟩
          cases isSkin_unique hs hs3
          cases at_unique hx hx3
          cases source_unique hsrc hsrc2
          rw [hp] at hp2
          simp only [JVal.str.injEq] at hp2
          subst hp2
          obtain ⟨_, rfl⟩ := c95_unique hl (c96_same hr h hl2)
          obtain ⟨h3, h4⟩ := (ih hm').1 hl2
          exact ⟨h3, h2, h4⟩
      · rintro ⟨h1, h2, h3⟩
        obtain ⟨s', hs', hx'⟩ := (at_clean hr h).2 ⟨⟨s, hs, hx⟩, h1, h2⟩
        exact .linked hs' hx' hk hsrc hp ((ih hm').2 ⟨h1, h3⟩)

/-- every look comes with the names it is made of -/
theorem made_of_looks {skins : List (Skin F)} {n slot key : Str} {k : AttKind} {f : Str → JVal F} (h : Looks skins n slot key k f) :
    ∃ l, Made skins n slot key (key :: l) := by
  induction h with
  | plain hs hx hk => exact ⟨[], .plain hs hx hk⟩
  | linked hs hx hk hm hp _ ih =>
    obtain ⟨l, hl⟩ := ih
    exact ⟨_, .linked hs hx hk hm hp hl⟩

theorem made_hasAtt {a : AnimData F} {n slot key : Str} {l : List Str} (h : Made a.skins n slot key l) :
    ∀ c ∈ l, ∃ x, a.HasAtt slot c x := by
  induction h with
  | plain hs hx hk =>
    intro c hc
    simp only [List.mem_singleton] at hc
    subst hc; exact ⟨_, hasAtt_of hs hx⟩
  | linked hs hx hk _ _ _ ih =>
    intro c hc
    rcases List.mem_cons.1 hc with rfl | hc
    · exact ⟨_, hasAtt_of hs hx⟩
    · exact ih c hc

/-- C96 for an attachment that is used in a slot that is shown, when the names of the meshes it is made of are used
themselves or belong to meshes of shown slots only: it looks as before. -/
theorem c96_looks_partial (hr : Ran e) (h : clean e = (.ok (ids, atts), e')) {n slot key : Str} {k : AttKind} {f : Str → JVal F}
    {l : List Str} (hl : Looks e.data.skins n slot key k f) (hm : Made e.data.skins n slot key (key :: l))
    (hs : SlotShown e.data slot) (hu : e.data.Uses key)
    (hp : ∀ c ∈ l, e.data.Uses c ∨ ∀ slot' x', e.data.HasAtt slot' c x' → x'.kind = .mesh ∧ SlotShown e.data slot') :
    Looks e'.data.skins n slot key k f := by
  refine (c96_exact hr h hl hm).2 ⟨hs, ?_⟩
  intro c hc
  rcases List.mem_cons.1 hc with rfl | hc
  · exact fun hun => hun.1 hu
  · rcases hp c hc with h1 | h1
    · exact fun hun => hun.1 h1
    · rintro ⟨_, slot', x', hx', hno⟩
      exact hno (h1 slot' x' hx')

/-- neither the slot nor the key of an attachment that is left was removed -/
theorem not_mem_of_left (hr : Ran e) (h : clean e = (.ok (ids, atts), e')) {slot key : Str} {x : Att F}
    (hx : e'.data.HasAtt slot key x) : slot ∉ ids ∧ key ∉ atts := by
  obtain ⟨s1, hs1, d, hd, hx1⟩ := hx
  rw [result_skins hr.sync h] at hs1
  obtain ⟨s0, _, rfl⟩ := List.mem_map.1 hs1
  exact (mem_cutSkin.1 ⟨d, hd, hx1⟩).2

theorem keyframes_cleaned {skins : List Str} {orig : List (Slot F)} {x x' : Anim F} (hc : Anim.Cleaned ids atts skins orig x x')
    {n slot key : Str} (hs : slot ∉ ids) (hk : key ∉ atts) : keyframes x'.deform n slot key = keyframes x.deform n slot key := by
  unfold keyframes
  rw [hc.deform]
  cases Dict.get? x.deform n with
  | none => rfl
  | some d =>
    simp only [Option.map_some]
    by_cases hn : n ∈ skins
    · rw [if_pos hn]
      simp only [Anim.cutTl, get?_dmap, get?_keep, if_neg hs]
      cases Dict.get? d slot with
      | none => rfl
      | some d => simp only [Option.map_some, get?_keep, if_neg hk]
    · rw [if_neg hn]
      simp only [get?_keep, if_neg hs]

/-- in every animation, every attachment that has a look after cleaning is bent by the keyframes that bent it before -/
theorem c96_bends (hr : Ran e) (h : clean e = (.ok (ids, atts), e')) :
    All₂ (fun p p' => p'.1 = p.1 ∧ ∀ n slot key k f t, Looks e'.data.skins n slot key k f →
      Bends e.data.skins p.2.deform n slot key t → Bends e'.data.skins p'.2.deform n slot key t)
      e.data.animations e'.data.animations := by
  refine (clean_anims_sync hr.sync h).mono ?_
  rintro p p' _ ⟨hn, hc⟩
  refine ⟨hn, ?_⟩
  intro n slot key k f t hl hb
  induction hb generalizing k f with
  | @own n s slot key x hs hx hf =>
    obtain ⟨s', hs', x', hx'⟩ := at_of_looks hl
    obtain ⟨⟨s3, hs3, hx3⟩, _⟩ := (at_clean hr h).1 ⟨s', hs', hx'⟩
    cases isSkin_unique hs hs3
    cases at_unique hx hx3
    obtain ⟨h1, h2⟩ := not_mem_of_left hr h (hasAtt_of hs' hx')
    rw [← keyframes_cleaned hc h1 h2]
    exact .own hs' hx' hf
  | @parent n s slot key x m q t hs hx hf hm hp _ ih =>
    cases hl with
    | plain hs' hx' hk' =>
      obtain ⟨⟨s3, hs3, hx3⟩, _⟩ := (at_clean hr h).1 ⟨_, hs', hx'⟩
      cases isSkin_unique hs hs3
      cases at_unique hx hx3
      exact absurd hf.1 hk'
    | linked hs' hx' hk' hm' hp' hl' =>
      obtain ⟨⟨s3, hs3, hx3⟩, _⟩ := (at_clean hr h).1 ⟨_, hs', hx'⟩
      cases isSkin_unique hs hs3
      cases at_unique hx hx3
      cases source_unique hm hm'
      rw [hp] at hp'
      simp only [JVal.str.injEq] at hp'
      subst hp'
      exact .parent hs' hx' hf hm hp (ih _ _ hl')

/-! ## examples -/
section examples
open Sample

/-- The linked mesh `m` is in use, and is shown before the call and has no mesh after it. -/
def losesMesh (d : J) (n slot key : Str) : Bool :=
  match Sample.load d with
  | none => false
  | some e => match clean e with
    | (.error _, _) => false
    | (.ok _, e') => (look e.data.skins 5 n slot key).isSome && (match att? e'.data.skins n slot key with
      | none => false
      | some x => decide (x.kind = .linked) && (match source x, x.attrs.val s!!"parent" with
        | some m, .str p => (att? e'.data.skins m slot p).isNone
        | _, _ => false))

theorem of_losesMesh {d : J} {n slot key : Str} (hg : good d = true) (h : losesMesh d n slot key = true) :
    ∃ (e e' : Editor Rat) (q : List Str × List Str) (k : AttKind) (f : Str → JVal Rat) (x : Att Rat),
      Ran e ∧ clean e = (.ok q, e') ∧ Looks e.data.skins n slot key k f ∧
      e'.data.HasAtt slot key x ∧ ¬ ∃ k' f', Looks e'.data.skins n slot key k' f' := by
  obtain ⟨e, he, hr⟩ := ran_of hg
  unfold losesMesh at h
  rw [he] at h
  simp only at h
  split at h
  · simp at h
  · rename_i q e' hq
    rw [Bool.and_eq_true] at h
    obtain ⟨h1, h2⟩ := h
    obtain ⟨p, hp⟩ := Option.isSome_iff_exists.1 h1
    split at h2
    · simp at h2
    · rename_i x hx
      rw [Bool.and_eq_true] at h2
      obtain ⟨h2, h3⟩ := h2
      have hk : x.kind = .linked := by simpa using h2
      split at h3
      · rename_i m t hm ht
        obtain ⟨s, hs, hx⟩ := att?_some hx
        refine ⟨e, e', q, _, _, x, hr, hq, look_some hp, hasAtt_of hs hx, ?_⟩
        rintro ⟨k', f', hl⟩
        cases hl with
        | plain hs' hx' hk' =>
          cases isSkin_unique hs hs'
          cases at_unique hx hx'
          exact hk' hk
        | linked hs' hx' hk' hm' hp' h' =>
          cases isSkin_unique hs hs'
          cases at_unique hx hx'
          cases source_unique (source_some hm) hm'
          rw [ht] at hp'
          simp only [JVal.str.injEq] at hp'
          subst hp'
          obtain ⟨s2, hs2, x2, hx2⟩ := at_of_looks h'
          rw [att?_of hs2 hx2] at h3
          simp at h3
      · simp at h3

/-- the mesh `m` is linked to the linked mesh `k`, which is linked to `n` -/
def middle : J := Sample.doc [root] [slot "s" "root" [("attachment", txt "m")]]
  [("red", obj [("s", obj [("n", mesh "red/n"),
      ("k", obj [("type", txt "linkedmesh"), ("skin", txt "red"), ("path", txt "red/k"), ("parent", txt "n")]),
      ("m", obj [("type", txt "linkedmesh"), ("skin", txt "red"), ("path", txt "red/m"), ("parent", txt "k")])])])]
  [("walk", obj [])]

/-- C96 is false of the code for meshes that are linked to linked meshes: the one in the middle is not in use and is
removed. -/
theorem c96_counterexample_middle :
    ∃ (e e' : Editor Rat) (q : List Str × List Str) (k : AttKind) (f : Str → JVal Rat) (x : Att Rat),
      Ran e ∧ clean e = (.ok q, e') ∧ Looks e.data.skins s!!"red" s!!"s" s!!"m" k f ∧
      e'.data.HasAtt s!!"s" s!!"m" x ∧ ¬ ∃ k' f', Looks e'.data.skins s!!"red" s!!"s" s!!"m" k' f' :=
  of_losesMesh (d := middle) (by decide +kernel) (by decide +kernel)

/-- the mesh `m` is linked to the mesh `n`; an image of another slot is called `n` too -/
def shared (other : String) : J := Sample.doc [root]
  [slot "s" "root" [("attachment", txt "m")], slot "t" "root" [("attachment", txt "i")]]
  [("red", obj [("s", obj [("n", mesh "red/n"),
      ("m", obj [("type", txt "linkedmesh"), ("skin", txt "red"), ("path", txt "red/m"), ("parent", txt "n")])]),
    ("t", obj [("i", obj []), (other, obj [])])])]
  [("walk", obj [])]

/-- C96 is false of the code when something else has the name of the mesh: the mesh is removed with it. -/
theorem c96_counterexample_shared :
    ∃ (e e' : Editor Rat) (q : List Str × List Str) (k : AttKind) (f : Str → JVal Rat) (x : Att Rat),
      Ran e ∧ clean e = (.ok q, e') ∧ Looks e.data.skins s!!"red" s!!"s" s!!"m" k f ∧
      e'.data.HasAtt s!!"s" s!!"m" x ∧ ¬ ∃ k' f', Looks e'.data.skins s!!"red" s!!"s" s!!"m" k' f' :=
  of_losesMesh (d := shared "n") (by decide +kernel) (by decide +kernel)

/-- a case of the theorems: with another name for the image, the mesh stays and the linked mesh looks as before -/
example : (Sample.load (shared "o")).map (fun e => [e, (clean e).2].map (fun e =>
    ((look e.data.skins 3 s!!"red" s!!"s" s!!"m").map (fun q => (q.1, textOf (q.2 s!!"path"))),
      (att? e.data.skins s!!"red" s!!"t" s!!"o").isSome))) =
    some [(some (.mesh, some "red/m"), true), (some (.mesh, some "red/m"), false)] := by decide +kernel

example : (Sample.load (shared "o")).map (fun e => (clean e).1.toOption) = some (some ([], [s!!"o"])) := by decide +kernel

end examples
end Meshes
end Spine
