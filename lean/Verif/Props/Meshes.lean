import Verif.Spec.Meshes
import Verif.Props.EraseSkins
/- Property C95: the attachments of the remaining skins look the same after `erase_skins`. -/
set_option linter.unusedSectionVars false
namespace Spine
namespace Meshes
open Editor AnimData
variable {F : Type} [PyRt F]

/-- The linked meshes of the remaining skins that take their mesh from one of the skins are called like that mesh, have
its colour, and the mesh is not linked itself; no linked mesh relies on "default" when that is one of the skins. -/
structure Tame (a : AnimData F) (names : List Str) : Prop where
  plain : PlainTargets a names
  key : ∀ slot key x n, a.HasAtt slot key x → n ∈ names → x.LinksTo n → x.attrs.val s!!"parent" = .str key
  colour : ∀ slot key x n, a.HasAtt slot key x → n ∈ names → x.LinksTo n →
    ∀ gone, IsSkin a.skins n gone → ∀ p, gone.At slot key p → p.attrs.val s!!"color" = x.attrs.val s!!"color"
  default : s!!"default" ∈ names → ∀ slot key x, a.HasAtt slot key x → x.kind = .linked → x.attrs.val s!!"skin" ≠ .null

theorem isSkin_unique {l : List (Skin F)} {n : Str} {b c : Skin F} (hb : IsSkin l n b) (hc : IsSkin l n c) : b = c := by
  obtain ⟨p, q, rfl, hb, hp⟩ := hb
  induction p with
  | nil =>
    obtain ⟨p', q', h, hc, hp'⟩ := hc
    cases p' with
    | nil => simp at h; exact h.1
    | cons x p' => simp at h; exact absurd (h.1 ▸ hb) (hp' x (by simp))
  | cons x p ih =>
    obtain ⟨p', q', h, hc, hp'⟩ := hc
    cases p' with
    | nil => simp at h; exact absurd (h.1 ▸ hc) (hp x (by simp))
    | cons x' p' =>
      simp at h
      exact ih ⟨p', q', h.2, hc, fun z hz => hp' z (by simp [hz])⟩ (fun z hz => hp z (by simp [hz]))

theorem at_unique {s : Skin F} {slot key : Str} {x y : Att F} (hx : s.At slot key x) (hy : s.At slot key y) : x = y := by
  obtain ⟨d, h1, h2⟩ := hx
  obtain ⟨d', h3, h4⟩ := hy
  rw [h1, Option.some.injEq] at h3
  subst h3
  rw [h2, Option.some.injEq] at h4
  exact h4

theorem source_unique {x : Att F} {m n : Str} (hm : Source x m) (hn : Source x n) : m = n := by
  unfold Source at hm hn
  rcases hm with hm | ⟨hm, rfl⟩ <;> rcases hn with hn | ⟨hn, rfl⟩
  · rw [hm] at hn; simpa using hn
  · rw [hm] at hn; simp at hn
  · rw [hm] at hn; simp at hn
  · rfl

/-- an attachment has one look -/
theorem c95_unique {skins : List (Skin F)} {n slot key : Str} {k k' : AttKind} {f f' : Str → JVal F}
    (h : Looks skins n slot key k f) (h' : Looks skins n slot key k' f') : k = k' ∧ f = f' := by
  induction h generalizing k' f' with
  | plain hs hx hk =>
    cases h' with
    | plain hs' hx' _ =>
      cases isSkin_unique hs hs'
      cases at_unique hx hx'
      exact ⟨rfl, rfl⟩
    | linked hs' hx' hk' =>
      cases isSkin_unique hs hs'
      cases at_unique hx hx'
      exact absurd hk' hk
  | linked hs hx hk hm hp _ ih =>
    cases h' with
    | plain hs' hx' hk' =>
      cases isSkin_unique hs hs'
      cases at_unique hx hx'
      exact absurd hk hk'
    | linked hs' hx' hk' hm' hp' h' =>
      cases isSkin_unique hs hs'
      cases at_unique hx hx'
      cases source_unique hm hm'
      rw [hp] at hp'
      simp only [JVal.str.injEq] at hp'
      subst hp'
      obtain ⟨rfl, rfl⟩ := ih h'
      exact ⟨rfl, rfl⟩

/-- an attachment is bent in one way -/
theorem c95_bends_unique {skins : List (Skin F)} {d : Deforms F} {n slot key : Str} {t t' : List (Attrs F)}
    (h : Bends skins d n slot key t) (h' : Bends skins d n slot key t') : t = t' := by
  induction h generalizing t' with
  | own hs hx hk =>
    cases h' with
    | own => rfl
    | parent hs' hx' hk' =>
      cases isSkin_unique hs hs'
      cases at_unique hx hx'
      exact absurd hk' hk
  | parent hs hx hk hm hp _ ih =>
    cases h' with
    | own hs' hx' hk' =>
      cases isSkin_unique hs hs'
      cases at_unique hx hx'
      exact absurd hk hk'
    | parent hs' hx' hk' hm' hp' h' =>
      cases isSkin_unique hs hs'
      cases at_unique hx hx'
      cases source_unique hm hm'
      rw [hp] at hp'
      simp only [JVal.str.injEq] at hp'
      subst hp'
      exact ih h'

/-! ## what is left of an attachment -/

theorem isSkin_all {R : Skin F → Skin F → Prop} {l l' : List (Skin F)} (h : All₂ R l l')
    (hn : ∀ b b', R b b' → b'.name = b.name) {n : Str} {b : Skin F} (hb : IsSkin l n b) :
    ∃ b', IsSkin l' n b' ∧ R b b' := by
  obtain ⟨p, q, rfl, hname, hp⟩ := hb
  induction p generalizing l' with
  | nil =>
    cases h with
    | cons hr h => exact ⟨_, ⟨[], _, rfl, (hn _ _ hr).trans hname, by simp⟩, hr⟩
  | cons x p ih =>
    cases h with
    | @cons _ y _ m hr h =>
      obtain ⟨b', ⟨p', q', rfl, h1, h2⟩, h3⟩ := ih h (fun z hz => hp z (by simp [hz]))
      refine ⟨b', ⟨y :: p', q', rfl, h1, ?_⟩, h3⟩
      intro z hz
      rcases List.mem_cons.1 hz with rfl | hz
      · rw [hn _ _ hr]; exact hp x (by simp)
      · exact h2 z hz

theorem isSkin_filter {l : List (Skin F)} {names : List Str} {n : Str} {s : Skin F} (hn : n ∉ names) (h : IsSkin l n s) :
    IsSkin (l.filter (fun s => s.name ∉ names)) n s := by
  obtain ⟨p, q, rfl, hs, hp⟩ := h
  refine ⟨p.filter (fun s => s.name ∉ names), q.filter (fun s => s.name ∉ names), ?_, hs, ?_⟩
  · rw [List.filter_append, List.filter_cons, if_pos (by simpa [hs] using hn)]
  · intro x hx
    exact hp x (List.mem_filter.1 hx).1

theorem get?_all {α β : Type} {R : Str × α → Str × β → Prop} {d : Dict α} {d' : Dict β}
    (h : All₂ (fun p p' => p'.1 = p.1 ∧ R p p') d d') {k : Str} {v : α} (hv : Dict.get? d k = some v) :
    ∃ v', Dict.get? d' k = some v' ∧ R (k, v) (k, v') := by
  induction h with
  | nil => simp [Dict.get?] at hv
  | @cons x y l m hr _ ih =>
    obtain ⟨k1, v1⟩ := x
    obtain ⟨k2, v2⟩ := y
    obtain ⟨hk, hr⟩ := hr
    simp only at hk
    subst hk
    simp only [Dict.get?] at hv ⊢
    split at hv
    · rename_i hk
      subst hk
      rw [Option.some.injEq] at hv
      subst hv
      exact ⟨v2, by simp, hr⟩
    · rename_i hk
      rw [if_neg hk]
      exact ih hv

theorem hasAtt_of {a : AnimData F} {n slot key : Str} {s : Skin F} {x : Att F} (hs : IsSkin a.skins n s) (hx : s.At slot key x) :
    a.HasAtt slot key x := by
  obtain ⟨p, q, hpq, _⟩ := hs
  obtain ⟨d, h1, h2⟩ := hx
  exact ⟨s, by rw [hpq]; simp, d, Dict.mem_of_get? h1, Dict.mem_of_get? h2⟩

variable {e e' : Editor F} {names : List Str} {r : List Str × List Str} {gone : List (Option Str)}

/-- what is left of an attachment of a remaining skin -/
theorem at_after (h : eraseSkins names true e = (.ok (r, gone), e')) (hp : PlainTargets e.data names) {n slot key : Str}
    (hn : n ∉ names) {s : Skin F} {x : Att F} (hs : IsSkin e.data.skins n s) (hx : s.At slot key x) :
    ∃ s' x', IsSkin e'.data.skins n s' ∧ s'.At slot key x' ∧ AttAfter e.data names slot key x x' := by
  obtain ⟨s', hs', hss⟩ := isSkin_all (c50_copies_partial h hp) (fun _ _ h => h.name) (isSkin_filter hn hs)
  obtain ⟨d, h1, h2⟩ := hx
  obtain ⟨d', h3, h4⟩ := get?_all hss.atts h1
  obtain ⟨x', h5, h6⟩ := get?_all h4 h2
  exact ⟨s', x', hs', ⟨d', h3, h5⟩, h6⟩

theorem val_copy {p x x' : Att F} (h : CopyOf p x x') (hc : p.attrs.val s!!"color" = x.attrs.val s!!"color") :
    x'.attrs.val = link x p.attrs.val := by
  funext k
  unfold link ownAttrs
  by_cases hk : k ∈ [s!!"name", s!!"path", s!!"width", s!!"height"]
  · rw [if_pos (by simp only [List.mem_cons] at hk ⊢; grind)]
    unfold Attrs.val
    rw [h.own k hk]; rfl
  · have hr : x'.attrs.val k = p.attrs.val k := by unfold Attrs.val; rw [h.rest k hk]
    rw [hr]
    split
    · have : k = s!!"color" := by simp only [List.mem_cons] at hk ‹_›; grind
      subst this; exact hc
    · rfl

/-- the source of a linked mesh is erased only if it is linked to it by name -/
theorem linksTo_of {x : Att F} (ht : Tame e.data names) {slot key : Str} (ha : e.data.HasAtt slot key x) (hk : x.kind = .linked) {m : Str}
    (hm : Source x m) (hmn : m ∈ names) : x.LinksTo m := by
  rcases hm with hm | ⟨hm, rfl⟩
  · refine ⟨hk, ?_⟩
    unfold Attrs.val at hm
    cases hg : Dict.get? x.attrs s!!"skin" with
    | none => rw [hg] at hm; simp at hm
    | some v => rw [hg] at hm; simp at hm; rw [hm]
  · exact absurd hm (ht.default hmn slot key x ha hk)

theorem linksTo_source {x : Att F} {m n : Str} (hl : x.LinksTo n) (hm : Source x m) : m = n := by
  refine source_unique hm (.inl ?_)
  unfold Attrs.val
  rw [hl.2]; rfl

/-- C95 in the setup pose: every attachment of a remaining skin looks as before. -/
theorem c95_looks_partial (h : eraseSkins names true e = (.ok (r, gone), e')) (ht : Tame e.data names) {n slot key : Str}
    (hn : n ∉ names) {k : AttKind} {f : Str → JVal F} (hl : Looks e.data.skins n slot key k f) :
    Looks e'.data.skins n slot key k f := by
  induction hl with
  | @plain n s slot key x hs hx hk =>
    obtain ⟨s', x', hs', hx', ha⟩ := at_after h ht.plain hn hs hx
    cases ha with
    | same => exact .plain hs' hx' hk
    | copy _ hl => exact absurd hl.1 hk
  | @linked n s slot key x m p k f hs hx hk hm hp hlooks ih =>
    obtain ⟨s', x', hs', hx', ha⟩ := at_after h ht.plain hn hs hx
    have hatt := hasAtt_of hs hx
    cases ha with
    | same hno =>
      have hmn : m ∉ names := fun hmn => hno m hmn (linksTo_of ht hatt hk hm hmn)
      exact .linked hs' hx' hk hm hp (ih hmn)
    | @copy m' gone p0 _ hmn hl hg hp0 hc =>
      cases linksTo_source hl hm
      have hkey := ht.key slot key x m hatt hmn hl
      rw [hkey] at hp
      simp only [JVal.str.injEq] at hp
      subst hp
      have hpl := ht.plain slot key x m hatt hmn hl gone hg p0 hp0
      obtain ⟨rfl, rfl⟩ := c95_unique hlooks (.plain hg hp0 hpl)
      rw [← val_copy hc (ht.colour slot key x m hatt hmn hl gone hg p0 hp0), ← hc.kind]
      exact .plain hs' hx' (by rw [hc.kind]; exact hpl)

theorem keyframes_drop {d : Deforms F} {n slot key : Str} (hn : n ∉ names) :
    keyframes (d.filter (fun p => p.1 ∉ names)) n slot key = keyframes d n slot key := by
  have : Dict.get? (d.filter (fun p => p.1 ∉ names)) n = Dict.get? d n := by
    induction d with
    | nil => rfl
    | cons p d ih =>
      obtain ⟨k, v⟩ := p
      by_cases hk : k ∉ names
      · rw [List.filter_cons, if_pos (by simpa using hk)]
        simp only [Dict.get?]
        rw [ih]
      · rw [List.filter_cons, if_neg (by simpa using hk), ih]
        have : k ≠ n := by rintro rfl; exact hk hn
        simp only [Dict.get?, if_neg this]
  unfold keyframes
  rw [this]

/-- C95 while an animation plays: every attachment of a remaining skin is bent by the same keyframes as before, unless
it was bent by those of a mesh of an erased skin. -/
theorem c95_bends_partial (h : eraseSkins names true e = (.ok (r, gone), e')) (ht : Tame e.data names)
    (hf : ∀ slot key x m, e.data.HasAtt slot key x → m ∈ names → x.LinksTo m → x.attrs.val s!!"deform" = .bool false)
    {n slot key : Str} (hn : n ∉ names) {a : Str} {x x' : Anim F} (hx : Dict.get? e.data.animations a = some x)
    (hx' : Dict.get? e'.data.animations a = some x') {t : List (Attrs F)}
    (hb : Bends e.data.skins x.deform n slot key t) : Bends e'.data.skins x'.deform n slot key t := by
  have hd : x'.deform = x.deform.filter (fun p => p.1 ∉ names) := by
    have := (c49_safe h).2.2.2.1
    rw [this] at hx'
    simp only [get?_dmap, hx, Option.map_some, Option.some.injEq] at hx'
    rw [← hx']; rfl
  rw [hd]
  induction hb with
  | @own n s slot key y hs hy hk =>
    obtain ⟨s', y', hs', hy', ha⟩ := at_after h ht.plain hn hs hy
    rw [← keyframes_drop hn]
    refine .own hs' hy' ?_
    cases ha with
    | same => exact hk
    | copy hmn hl hg hp0 hc =>
      rintro ⟨hc', _⟩
      rw [hc.kind] at hc'
      exact ht.plain _ _ _ _ (hasAtt_of hs hy) hmn hl _ hg _ hp0 hc'
  | @parent n s slot key y m p t hs hy hk hm hp _ ih =>
    obtain ⟨s', y', hs', hy', ha⟩ := at_after h ht.plain hn hs hy
    have hatt := hasAtt_of hs hy
    cases ha with
    | same hno =>
      have hmn : m ∉ names := fun hmn => hno m hmn (linksTo_of ht hatt hk.1 hm hmn)
      exact .parent hs' hy' hk hm hp (ih hmn)
    | copy hmn hl => exact absurd (hf _ _ _ _ hatt hmn hl) hk.2

/-! ## Examples and counterexamples -/
section examples
open Sample

/-- the attachment of the first skin of the name -/
def att? (skins : List (Skin F)) (n slot key : Str) : Option (Att F) :=
  match skins.find? (fun s => s.name == n) with
  | none => none
  | some s => match Dict.get? s.attachments slot with
    | none => none
    | some d => Dict.get? d key

theorem att?_some {skins : List (Skin F)} {n slot key : Str} {x : Att F} (h : att? skins n slot key = some x) :
    ∃ s, IsSkin skins n s ∧ s.At slot key x := by
  unfold att? at h
  split at h
  · simp at h
  · rename_i s hs
    split at h
    · simp at h
    · rename_i d hd
      refine ⟨s, ?_, d, hd, h⟩
      rw [List.find?_eq_some_iff_append] at hs
      obtain ⟨h1, p, q, rfl, h2⟩ := hs
      exact ⟨p, q, rfl, by simpa using h1, fun x hx => by simpa using h2 x hx⟩

def source (x : Att F) : Option Str :=
  match x.attrs.val s!!"skin" with
  | .str n => some n
  | .null => some s!!"default"
  | _ => none

theorem source_some {x : Att F} {n : Str} (h : source x = some n) : Source x n := by
  unfold source at h
  unfold Source
  split at h
  · rename_i m hm
    rw [Option.some.injEq] at h
    subst h; exact .inl hm
  · rename_i hm
    rw [Option.some.injEq] at h
    exact .inr ⟨hm, h.symm⟩
  · simp at h

def look (skins : List (Skin F)) : Nat → Str → Str → Str → Option (AttKind × (Str → JVal F))
  | 0, _, _, _ => none
  | i + 1, n, slot, key => match att? skins n slot key with
    | none => none
    | some x =>
      if x.kind = .linked then
        match source x, x.attrs.val s!!"parent" with
        | some m, .str p => match look skins i m slot p with
          | none => none
          | some q => some (q.1, link x q.2)
        | _, _ => none
      else some (x.kind, x.attrs.val)

theorem look_some {skins : List (Skin F)} {i : Nat} {n slot key : Str} {q : AttKind × (Str → JVal F)}
    (h : look skins i n slot key = some q) : Looks skins n slot key q.1 q.2 := by
  induction i generalizing n slot key q with
  | zero => simp [look] at h
  | succ i ih =>
    rw [look] at h
    split at h
    · simp at h
    · rename_i x hx
      obtain ⟨s, hs, hx⟩ := att?_some hx
      split at h
      · rename_i hk
        split at h
        · rename_i m p hm hp
          split at h
          · simp at h
          · rename_i q' hq
            rw [Option.some.injEq] at h
            subst h
            exact .linked hs hx hk (source_some hm) hp (ih hq)
        · simp at h
      · rename_i hk
        rw [Option.some.injEq] at h
        subst h
        exact .plain hs hx hk

def bend (skins : List (Skin F)) (d : Deforms F) : Nat → Str → Str → Str → Option (List (Attrs F))
  | 0, _, _, _ => none
  | i + 1, n, slot, key => match att? skins n slot key with
    | none => none
    | some x =>
      if x.kind = .linked then
        match x.attrs.val s!!"deform" with
        | .bool false => some (keyframes d n slot key)
        | _ => match source x, x.attrs.val s!!"parent" with
          | some m, .str p => bend skins d i m slot p
          | _, _ => none
      else some (keyframes d n slot key)

theorem bend_some {skins : List (Skin F)} {d : Deforms F} {i : Nat} {n slot key : Str} {t : List (Attrs F)}
    (h : bend skins d i n slot key = some t) : Bends skins d n slot key t := by
  induction i generalizing n slot key t with
  | zero => simp [bend] at h
  | succ i ih =>
    rw [bend] at h
    split at h
    · simp at h
    · rename_i x hx
      obtain ⟨s, hs, hx⟩ := att?_some hx
      split at h
      · rename_i hk
        split at h
        · rename_i hd
          rw [Option.some.injEq] at h
          subst h
          exact .own hs hx (fun hf => hf.2 hd)
        · rename_i hd
          split at h
          · rename_i m p hm hp
            exact .parent hs hx ⟨hk, hd⟩ (source_some hm) hp (ih h)
          · simp at h
      · rename_i hk
        rw [Option.some.injEq] at h
        subst h
        exact .own hs hx (fun hf => hk hf.1)

/-- nothing is shown for a linked mesh whose skin is not there -/
theorem no_look {skins : List (Skin F)} {n slot key : Str} {x : Att F} {m : Str} (hx : att? skins n slot key = some x)
    (hk : x.kind = .linked) (hm : source x = some m) (hno : skins.all (fun s => s.name != m) = true) :
    ¬ ∃ k f, Looks skins n slot key k f := by
  obtain ⟨s, hs, hx⟩ := att?_some hx
  have hno : ∀ s' ∈ skins, s'.name ≠ m := by
    intro s' hs'
    simpa using List.all_eq_true.1 hno s' hs'
  rintro ⟨k, f, h⟩
  cases h with
  | plain hs' hx' hk' =>
    cases isSkin_unique hs hs'
    cases at_unique hx hx'
    exact hk' hk
  | linked hs' hx' hk' hm' hp' h' =>
    cases isSkin_unique hs hs'
    cases at_unique hx hx'
    cases source_unique (source_some hm) hm'
    have : ∀ {sl ke k f}, Looks skins m sl ke k f → False := by
      intro sl ke k f h
      cases h with
      | plain hs _ _ =>
        obtain ⟨p, q, rfl, h, _⟩ := hs
        exact hno _ (by simp) h
      | linked hs =>
        obtain ⟨p, q, rfl, h, _⟩ := hs
        exact hno _ (by simp) h
    exact this h'

/-- a text or a whole number -/
def textOf : JVal Rat → Option String
  | .str s => some (String.ofList s)
  | .int i => some (toString i)
  | _ => none

/-- the attribute looks different after the call -/
def differs (d : J) (names : List Str) (n slot key attr : Str) : Bool :=
  match Sample.load d with
  | none => false
  | some e => match eraseSkins names true e with
    | (.error _, _) => false
    | (.ok _, e') => match look e.data.skins 5 n slot key, look e'.data.skins 5 n slot key with
      | some q, some q' => textOf (q.2 attr) != textOf (q'.2 attr)
      | _, _ => false

theorem of_differs {d : J} {names : List Str} {n slot key attr : Str} (hg : good d = true) (h : differs d names n slot key attr = true) :
    ∃ (e e' : Editor Rat) (q : (List Str × List Str) × List (Option Str)) (k k' : AttKind) (f f' : Str → JVal Rat),
      Ran e ∧ eraseSkins names true e = (.ok q, e') ∧ Looks e.data.skins n slot key k f ∧
      Looks e'.data.skins n slot key k' f' ∧ f attr ≠ f' attr := by
  obtain ⟨e, he, hr⟩ := ran_of hg
  unfold differs at h
  rw [he] at h
  simp only at h
  split at h
  · simp at h
  · rename_i q e' hq
    split at h
    · rename_i p p' h1 h2
      refine ⟨e, e', q, _, _, _, _, hr, hq, look_some h1, look_some h2, ?_⟩
      intro hc
      rw [hc] at h
      simp at h
    · simp at h

/-- `blue` links to the mesh of `red`; both have a colour -/
def colours (c : String) : J := Sample.doc [root] [slot "s" "root" [("attachment", txt "m")]]
  [("red", obj [("s", obj [("m", obj [("type", txt "mesh"), ("path", txt "red/m"), ("hull", .int 3), ("color", txt "ff0000ff")])])]),
   ("blue", obj [("s", obj [("m", obj [("type", txt "linkedmesh"), ("skin", txt "red"), ("path", txt "blue/m"), ("parent", txt "m"),
      ("deform", .bool false), ("color", txt c)])])])]
  [("walk", obj [("deform", obj [("blue", obj [("s", obj [("m", .list [obj [("time", .int 1)]])])])])])]

/-- C95 is false of the code: the copy of the mesh has the colour of the mesh, not that of the linked mesh. -/
theorem c95_counterexample_colour :
    ∃ (e e' : Editor Rat) (q : (List Str × List Str) × List (Option Str)) (k k' : AttKind) (f f' : Str → JVal Rat),
      Ran e ∧ eraseSkins [s!!"red"] true e = (.ok q, e') ∧ Looks e.data.skins s!!"blue" s!!"s" s!!"m" k f ∧
      Looks e'.data.skins s!!"blue" s!!"s" s!!"m" k' f' ∧ f s!!"color" ≠ f' s!!"color" :=
  of_differs (d := colours "0000ffff") (by decide +kernel) (by decide +kernel)

/-- C95 is false of the code: the mesh is looked up under the name of the linked mesh instead of `parent`. -/
theorem c95_counterexample_parent :
    ∃ (e e' : Editor Rat) (q : (List Str × List Str) × List (Option Str)) (k k' : AttKind) (f f' : Str → JVal Rat),
      Ran e ∧ eraseSkins [s!!"red"] true e = (.ok q, e') ∧ Looks e.data.skins s!!"blue" s!!"s" s!!"n" k f ∧
      Looks e'.data.skins s!!"blue" s!!"s" s!!"n" k' f' ∧ f s!!"hull" ≠ f' s!!"hull" :=
  of_differs (d := otherKey) (by decide +kernel) (by decide +kernel)

/-- the attachment is a linked mesh without its mesh after the call -/
def loses (d : J) (names : List Str) (n slot key : Str) : Bool :=
  match Sample.load d with
  | none => false
  | some e => match eraseSkins names true e with
    | (.error _, _) => false
    | (.ok _, e') => (look e.data.skins 5 n slot key).isSome && (match att? e'.data.skins n slot key with
      | none => false
      | some x => decide (x.kind = .linked) && (match source x with
        | none => false
        | some m => e'.data.skins.all (fun s => s.name != m)))

theorem of_loses {d : J} {names : List Str} {n slot key : Str} (hg : good d = true) (h : loses d names n slot key = true) :
    ∃ (e e' : Editor Rat) (q : (List Str × List Str) × List (Option Str)) (k : AttKind) (f : Str → JVal Rat),
      Ran e ∧ eraseSkins names true e = (.ok q, e') ∧ Looks e.data.skins n slot key k f ∧
      ¬ ∃ k' f', Looks e'.data.skins n slot key k' f' := by
  obtain ⟨e, he, hr⟩ := ran_of hg
  unfold loses at h
  rw [he] at h
  simp only at h
  split at h
  · simp at h
  · rename_i q e' hq
    rw [Bool.and_eq_true] at h
    obtain ⟨h1, h2⟩ := h
    obtain ⟨p, hp⟩ := Option.isSome_iff_exists.1 h1
    split at h2
    · simp at h2
    · rename_i x hx
      rw [Bool.and_eq_true] at h2
      obtain ⟨h2, h3⟩ := h2
      split at h3
      · simp at h3
      · rename_i m hm
        exact ⟨e, e', q, _, _, hr, hq, look_some hp, no_look hx (by simpa using h2) hm h3⟩

/-- C95 is false of the code for linked meshes that name no skin: when "default" is erased, they have no mesh left. -/
theorem c95_counterexample_default :
    ∃ (e e' : Editor Rat) (q : (List Str × List Str) × List (Option Str)) (k : AttKind) (f : Str → JVal Rat),
      Ran e ∧ eraseSkins [s!!"default"] true e = (.ok q, e') ∧ Looks e.data.skins s!!"blue" s!!"s" s!!"m" k f ∧
      ¬ ∃ k' f', Looks e'.data.skins s!!"blue" s!!"s" s!!"m" k' f' :=
  of_loses (d := defaultLink) (by decide +kernel) (by decide +kernel)

/-- `blue` links to `red`, whose mesh `m` is linked to its mesh `n` -/
def chain : J := Sample.doc [root] [slot "s" "root" [("attachment", txt "m")]]
  [("red", obj [("s", obj [("m", obj [("type", txt "linkedmesh"), ("skin", txt "red"), ("path", txt "red/m"), ("parent", txt "n")]),
      ("n", mesh "red/n")])]),
   ("blue", obj [("s", obj [("m", linked "red" "blue/m")])])] [("walk", obj [])]

/-- C95 is false of the code for linked meshes that are linked to linked meshes: they have no mesh left. -/
theorem c95_counterexample_linked :
    ∃ (e e' : Editor Rat) (q : (List Str × List Str) × List (Option Str)) (k : AttKind) (f : Str → JVal Rat),
      Ran e ∧ eraseSkins [s!!"red"] true e = (.ok q, e') ∧ Looks e.data.skins s!!"blue" s!!"s" s!!"m" k f ∧
      ¬ ∃ k' f', Looks e'.data.skins s!!"blue" s!!"s" s!!"m" k' f' :=
  of_loses (d := chain) (by decide +kernel) (by decide +kernel)

/-- the deform timelines of the animation -/
def deformOf (e : Editor Rat) (a : Str) : Deforms Rat :=
  match Dict.get? e.data.animations a with
  | some x => x.deform
  | none => []

/-- the mesh of `red`, to which that of `blue` is linked, is bent while the animation plays -/
def bent : J := Sample.doc [root] [slot "s" "root" [("attachment", txt "m")]]
  [("red", obj [("s", obj [("m", mesh "red/m")])]), ("blue", obj [("s", obj [("m", linked "red" "blue/m")])])]
  [("walk", obj [("deform", obj [("red", obj [("s", obj [("m", .list [obj [("time", .int 1)]])])])])])]

def unbends (d : J) (names : List Str) (a n slot key : Str) : Bool :=
  match Sample.load d with
  | none => false
  | some e => match eraseSkins names true e with
    | (.error _, _) => false
    | (.ok _, e') => match bend e.data.skins (deformOf e a) 5 n slot key, bend e'.data.skins (deformOf e' a) 5 n slot key with
      | some t, some t' => t.length == 1 && t'.length == 0
      | _, _ => false

/-- C95 is false of the code while an animation plays: a linked mesh that is bent with its mesh is stiff afterwards. -/
theorem c95_counterexample_bent :
    ∃ (e e' : Editor Rat) (q : (List Str × List Str) × List (Option Str)) (t t' : List (Attrs Rat)),
      Ran e ∧ eraseSkins [s!!"red"] true e = (.ok q, e') ∧
      Bends e.data.skins (deformOf e s!!"walk") s!!"blue" s!!"s" s!!"m" t ∧
      Bends e'.data.skins (deformOf e' s!!"walk") s!!"blue" s!!"s" s!!"m" t' ∧ t.length = 1 ∧ t'.length = 0 := by
  obtain ⟨e, he, hr⟩ := ran_of (d := bent) (by decide +kernel)
  have h : unbends bent [s!!"red"] s!!"walk" s!!"blue" s!!"s" s!!"m" = true := by decide +kernel
  unfold unbends at h
  rw [he] at h
  simp only at h
  split at h
  · simp at h
  · rename_i q e' hq
    split at h
    · rename_i t t' h1 h2
      simp only [Bool.and_eq_true, beq_iff_eq] at h
      exact ⟨e, e', q, t, t', hr, hq, bend_some h1, bend_some h2, h.1, h.2⟩
    · simp at h

/-- all attachments of the skins, with slot and key -/
def attsOf (a : AnimData F) : List (Str × Str × Att F) :=
  a.skins.flatMap (fun s => s.attachments.flatMap (fun p => p.2.map (fun q => (p.1, q.1, q.2))))

theorem mem_attsOf {a : AnimData F} {slot key : Str} {x : Att F} (h : a.HasAtt slot key x) : (slot, key, x) ∈ attsOf a := by
  obtain ⟨s, hs, d, hd, hx⟩ := h
  simp only [attsOf, List.mem_flatMap, List.mem_map]
  exact ⟨s, hs, (slot, d), hd, (key, x), hx, rfl⟩

def isText : JVal Rat → Str → Bool
  | .str t, s => t == s
  | _, _ => false

/-- a test for `Tame`, when "default" is not erased -/
def tameB (a : AnimData Rat) (names : List Str) : Bool :=
  plainB a names && !(decide (s!!"default" ∈ names)) && (attsOf a).all (fun q => names.all (fun n =>
    !linksTo n q.2.2 || (isText (q.2.2.attrs.val s!!"parent") q.2.1 &&
      (match att? a.skins n q.1 q.2.1 with
        | none => true
        | some p => match p.attrs.val s!!"color", q.2.2.attrs.val s!!"color" with
          | .str s, .str t => s == t
          | .null, .null => true
          | _, _ => false))))

theorem att?_of {skins : List (Skin F)} {n slot key : Str} {s : Skin F} {x : Att F} (hs : IsSkin skins n s) (hx : s.At slot key x) :
    att? skins n slot key = some x := by
  obtain ⟨p, q, rfl, h1, h2⟩ := hs
  obtain ⟨d, h3, h4⟩ := hx
  have : (p ++ s :: q).find? (fun s => s.name == n) = some s := by
    rw [List.find?_eq_some_iff_append]
    exact ⟨by simpa using h1, p, q, rfl, fun x hx => by simpa using h2 x hx⟩
  unfold att?
  rw [this]; simp only [h3, h4]

theorem tame_of {a : AnimData Rat} {names : List Str} (h : tameB a names = true) : Tame a names := by
  unfold tameB at h
  rw [Bool.and_eq_true, Bool.and_eq_true] at h
  obtain ⟨⟨h1, h2⟩, h3⟩ := h
  have key : ∀ slot key x n, a.HasAtt slot key x → n ∈ names → x.LinksTo n → isText (x.attrs.val s!!"parent") key = true ∧
      (match att? a.skins n slot key with
        | none => true
        | some p => match p.attrs.val s!!"color", x.attrs.val s!!"color" with
          | .str s, .str t => s == t
          | .null, .null => true
          | _, _ => false) = true := by
    intro slot key x n ha hn hl
    have := List.all_eq_true.1 (List.all_eq_true.1 h3 _ (mem_attsOf ha)) n hn
    rw [(linksTo_iff n x).2 hl, Bool.not_true, Bool.false_or, Bool.and_eq_true] at this
    exact this
  refine ⟨plain_of h1, ?_, ?_, ?_⟩
  · intro slot key' x n ha hn hl
    have := (key slot key' x n ha hn hl).1
    unfold isText at this
    split at this
    · rename_i t ht
      rw [ht]; simpa using this
    · simp at this
  · intro slot key' x n ha hn hl gone hg p hp
    have := (key slot key' x n ha hn hl).2
    rw [att?_of hg hp] at this
    simp only at this
    split at this
    · rename_i s t h1 h2
      rw [h1, h2]; simpa using this
    · rename_i h1 h2
      rw [h1, h2]
    · simp at this
  · intro hc
    simp [hc] at h2

/-- a case that meets the hypotheses of `c95_looks_partial` and `c95_bends_partial`: a linked mesh that becomes a mesh -/
example : ∃ e, Sample.load (colours "ff0000ff") = some e ∧ Ran e ∧ Tame e.data [s!!"red"] := by
  obtain ⟨e, he, hr⟩ := ran_of (d := colours "ff0000ff") (by decide +kernel)
  refine ⟨e, he, hr, tame_of ?_⟩
  have : (Sample.load (colours "ff0000ff")).all (fun e => tameB e.data [s!!"red"]) = true := by decide +kernel
  rw [he] at this
  simpa using this

set_option synthInstance.maxHeartbeats 200000 in
set_option synthInstance.maxSize 1000 in
example : (Sample.load (colours "ff0000ff")).map (fun e => (linksOf e, linksOf (eraseSkins [s!!"red"] true e).2)) =
    some ([("red", [(.mesh, none)]), ("blue", [(.linked, some "red")])], [("blue", [(.mesh, none)])]) := by decide +kernel

example : (Sample.load (colours "ff0000ff")).map (fun e => [e, (eraseSkins [s!!"red"] true e).2].map (fun e =>
    (look e.data.skins 3 s!!"blue" s!!"s" s!!"m").map (fun q => (q.1, textOf (q.2 s!!"path"), textOf (q.2 s!!"hull"))))) =
    some [some (.mesh, some "blue/m", some "3"), some (.mesh, some "blue/m", some "3")] := by decide +kernel

end examples
end Meshes
end Spine
