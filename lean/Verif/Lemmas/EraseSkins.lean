import Verif.Lemmas.SkinOps
import Verif.Props.Images
import Verif.Props.CleanTwice
/- What `erase_skins` does to the skins and animations, step by step. -/
set_option linter.unusedSectionVars false
set_option linter.unusedSimpArgs false
namespace Spine
open JVal Graph AnimData
variable {F : Type} [PyRt F]

/-! ## Vocabulary -/

/-- the linked mesh names the skin it takes its mesh from -/
def Att.LinksTo (x : Att F) (n : Str) : Prop := x.kind = .linked ∧ Dict.get? x.attrs s!!"skin" = some (.str n)

/-- the first skin of a name -/
def IsSkin (skins : List (Skin F)) (n : Str) (s : Skin F) : Prop :=
  ∃ l r, skins = l ++ s :: r ∧ s.name = n ∧ ∀ x ∈ l, x.name ≠ n

/-- the attachment of the skin under this slot and key -/
def Skin.At (s : Skin F) (slot key : Str) (p : Att F) : Prop :=
  ∃ d, Dict.get? s.attachments slot = some d ∧ Dict.get? d key = some p

/-- `x'` is a copy of `p`, with the name, path, width and height of `x` -/
structure CopyOf (p x x' : Att F) : Prop where
  kind : x'.kind = p.kind
  own : ∀ k ∈ [s!!"name", s!!"path", s!!"width", s!!"height"], Dict.get? x'.attrs k = some (x.attrs.val k)
  rest : ∀ k, k ∉ [s!!"name", s!!"path", s!!"width", s!!"height"] → Dict.get? x'.attrs k = Dict.get? p.attrs k

/-- an attachment after the removal of skins: unchanged, or a copy of the mesh it was linked to -/
inductive AttAfter (a : AnimData F) (names : List Str) (slot key : Str) (x : Att F) : Att F → Prop
  | same : (∀ n ∈ names, ¬ x.LinksTo n) → AttAfter a names slot key x x
  | copy {n gone p x'} : n ∈ names → x.LinksTo n → IsSkin a.skins n gone → gone.At slot key p → CopyOf p x x' →
      AttAfter a names slot key x x'

/-- a skin after the removal of skins -/
structure SkinAfter (a : AnimData F) (names : List Str) (s s' : Skin F) : Prop where
  name : s'.name = s.name
  atts : All₂ (fun p p' => p'.1 = p.1 ∧ All₂ (fun q q' => q'.1 = q.1 ∧ AttAfter a names p.1 q.1 q.2 q'.2) p.2 p'.2)
    s.attachments s'.attachments

/-- the meshes that linked meshes take from these skins are not linked meshes themselves -/
def PlainTargets (a : AnimData F) (names : List Str) : Prop :=
  ∀ slot key x n, a.HasAtt slot key x → n ∈ names → x.LinksTo n → ∀ gone, IsSkin a.skins n gone → ∀ p, gone.At slot key p → p.kind ≠ .linked

/-! ## Proofs -/

theorem linksTo_iff (n : Str) (x : Att F) : linksTo n x = true ↔ x.LinksTo n := by
  unfold linksTo Att.LinksTo Attrs.val
  cases hg : Dict.get? x.attrs s!!"skin" with
  | none => simp
  | some v => cases v <;> cases hk : x.kind <;> simp

theorem linksTo_false (n : Str) (x : Att F) : linksTo n x = false ↔ ¬ x.LinksTo n := by
  rw [← linksTo_iff]; simp

theorem getSkin_some (a : AnimData F) (n : Str) (s : Skin F) : getSkin a n = some s ↔ IsSkin a.skins n s := by
  simp only [getSkin, List.find?_eq_some_iff_append, IsSkin, beq_iff_eq, Bool.not_eq_true', beq_eq_false_iff_ne]
  constructor
  · rintro ⟨h, l, r, e, hl⟩; exact ⟨l, r, e, h, hl⟩
  · rintro ⟨l, r, e, h, hl⟩; exact ⟨h, l, r, e, hl⟩

theorem All₂.comp {α β γ : Type} {R : α → β → Prop} {S : β → γ → Prop} {T : α → γ → Prop} {l : List α} {m : List β} {k : List γ}
    (h : All₂ R l m) (h' : All₂ S m k) (ht : ∀ x y z, x ∈ l → y ∈ m → R x y → S y z → T x z) : All₂ T l k := by
  induction h generalizing k with
  | nil => cases h'; exact .nil
  | cons hr _ ih =>
    cases h' with
    | cons hs h' =>
      exact .cons (ht _ _ _ (by simp) (by simp) hr hs) (ih h' (fun x y z hx hy => ht x y z (by simp [hx]) (by simp [hy])))

theorem All₂.find {α β : Type} {R : α → β → Prop} {l : List α} {m : List β} (h : All₂ R l m) {p : α → Bool} {q : β → Bool}
    (hpq : ∀ x y, R x y → p x = q y) {y : β} (hy : m.find? q = some y) : ∃ x, l.find? p = some x ∧ R x y := by
  induction h with
  | nil => cases hy
  | @cons x z l m hr _ ih =>
    have e := hpq _ _ hr
    rw [List.find?_cons] at hy ⊢
    cases hq : q z with
    | true => rw [hq] at hy; simp only [Option.some.injEq] at hy; subst hy; exact ⟨x, by rw [e, hq], hr⟩
    | false => rw [hq] at hy; rw [e, hq]; exact ih hy

theorem All₂.get? {α β : Type} {R : Str → α → β → Prop} {d : Dict α} {d' : Dict β} (h : All₂ (fun p p' => p'.1 = p.1 ∧ R p.1 p.2 p'.2) d d')
    {k : Str} {y : β} (hy : Dict.get? d' k = some y) : ∃ x, Dict.get? d k = some x ∧ R k x y := by
  induction h with
  | nil => cases hy
  | @cons p p' l m hr _ ih =>
    obtain ⟨k0, v⟩ := p
    obtain ⟨k1, v'⟩ := p'
    obtain ⟨e, hr⟩ := hr
    simp only at e hr
    subst e
    rw [Dict.get?] at hy ⊢
    split at hy
    · rename_i hk
      subst hk
      injection hy with hy; subst hy
      exact ⟨v, by simp, hr⟩
    · rename_i hk
      rw [if_neg hk]; exact ih hy

theorem AttAfter.of_relinked {gone : Skin F} {n slot key : Str} {x x' : Att F} (h : Relinked gone n slot key x x') :
    (¬ x.LinksTo n ∧ x' = x) ∨ (x.LinksTo n ∧ ∃ p, gone.At slot key p ∧ CopyOf p x x') := by
  cases h with
  | same h => exact .inl ⟨(linksTo_false n x).1 h, rfl⟩
  | @copy d p h h1 h2 =>
    refine .inr ⟨(linksTo_iff n x).1 h, p, ⟨d, h1, h2⟩, rfl, ?_, ?_⟩
    · intro k hk; rw [relinked_get?, if_pos hk]
    · intro k hk; rw [relinked_get?, if_neg hk]

/-- a removal keeps the attachments of a skin that are not linked meshes -/
theorem SkinRel.at_plain {gone : Skin F} {n : Str} {s s' : Skin F} (h : SkinRel gone n s s') {slot key : Str} {p' : Att F} (hp : s'.At slot key p') :
    ∃ p, s.At slot key p ∧ (p.kind ≠ .linked → p' = p) := by
  rcases h.2 with ⟨_, rfl⟩ | ⟨_, h⟩
  · exact ⟨p', hp, fun _ => rfl⟩
  · obtain ⟨d', h1, h2⟩ := hp
    obtain ⟨d, g1, h⟩ := All₂.get? (R := fun k (d d' : Dict (Att F)) => All₂ (fun q q' => q'.1 = q.1 ∧ Relinked gone n k q.1 q.2 q'.2) d d') h h1
    obtain ⟨p, g2, h⟩ := All₂.get? (R := fun k (x x' : Att F) => Relinked gone n slot k x x') h h2
    refine ⟨p, ⟨d, g1, g2⟩, fun hk => ?_⟩
    rcases AttAfter.of_relinked h with ⟨_, rfl⟩ | ⟨hl, _⟩
    · rfl
    · exact absurd hl.1 hk

namespace Editor

/-- the deform timelines of the animation are those of the other skins -/
def dropDeforms (names : List Str) (x : Anim F) : Anim F := { x with deform := x.deform.filter (fun p => p.1 ∉ names) }

theorem removeSkin_skins {n : Str} {a a' : AnimData F} {r : List (Option Str) × List Str} (h : removeSkin n a = (.ok r, a')) :
    ∃ gone, getSkin a n = some gone ∧ removedImages gone = .ok r ∧ All₂ (SkinRel gone n) (a.skins.filter (fun s => s.name ≠ n)) a'.skins ∧
      a' = { a with skins := a'.skins, animations := dmap (dropDeform n) a.animations } := by
  obtain ⟨gone, sk, h1, h2, h3, rfl⟩ := removeSkin_ok h
  refine ⟨gone, h1, h3, ?_, rfl⟩
  refine h2.filter ?_
  intro x y _ _ hr
  rw [hr.1]

theorem removeSkins_facts {names : List Str} : ∀ {a a' : AnimData F} {r : List (Option Str) × List Str},
    removeSkins names a = (.ok r, a') → (∀ n ∈ names, ∃ s ∈ a.skins, s.name = n) ∧ names.Nodup ∧
      a'.skins.map (·.name) = (a.skins.map (·.name)).filter (fun n => n ∉ names) ∧
      a' = { a with skins := a'.skins, animations := dmap (dropDeforms names) a.animations } := by
  induction names with
  | nil =>
    intro a a' r h
    simp only [removeSkins, Prod.mk.injEq] at h
    rw [← h.2]
    refine ⟨by simp, by simp, ?_, ?_⟩
    · rw [List.filter_eq_self.2 (by simp)]
    · have : dmap (dropDeforms []) a.animations = a.animations := by
        rw [dmap_fixed_iff]
        intro p _
        unfold dropDeforms
        rw [List.filter_eq_self.2 (by simp)]
      rw [this]
  | cons n ns ih =>
    intro a a' r h
    obtain ⟨i, s, is, rs, a1, h1, h2, _⟩ := removeSkins_cons h
    obtain ⟨gone, hg, _, hsk, ha1⟩ := removeSkin_skins h1
    obtain ⟨i1, i2, i3, i4⟩ := ih h2
    have hnames : a1.skins.map (·.name) = (a.skins.filter (fun s => s.name ≠ n)).map (·.name) :=
      (hsk.map_eq (f := fun s => s.name) (g := fun s => s.name) (fun _ _ h => h.1.symm)).symm
    have hmem : ∀ m, (∃ s ∈ a1.skins, s.name = m) ↔ ∃ s ∈ a.skins, s.name = m ∧ m ≠ n := by
      intro m
      have : (∃ s ∈ a1.skins, s.name = m) ↔ m ∈ a1.skins.map (·.name) := by simp
      rw [this, hnames]
      simp only [List.mem_map, List.mem_filter, decide_eq_true_eq]
      constructor
      · rintro ⟨s, ⟨h1, h2⟩, rfl⟩; exact ⟨s, h1, rfl, h2⟩
      · rintro ⟨s, h1, rfl, h2⟩; exact ⟨s, ⟨h1, h2⟩, rfl⟩
    refine ⟨?_, ?_, ?_, ?_⟩
    · intro m hm
      rcases List.mem_cons.1 hm with rfl | hm
      · exact ⟨gone, (getSkin_mem hg).1, (getSkin_mem hg).2⟩
      · obtain ⟨s, h1, h2, _⟩ := (hmem m).1 (i1 m hm); exact ⟨s, h1, h2⟩
    · refine List.nodup_cons.2 ⟨fun hm => ?_, i2⟩
      obtain ⟨s, _, _, h⟩ := (hmem n).1 (i1 n hm)
      exact h rfl
    · rw [i3, hnames]
      simp only [List.filter_map, List.filter_filter]
      congr 1
      refine List.filter_congr ?_
      intro s _
      simp only [Function.comp, List.mem_cons, not_or, Bool.decide_and]
      exact Bool.and_comm _ _
    · rw [i4]
      have : dmap (dropDeforms ns) a1.animations = dmap (dropDeforms (n :: ns)) a.animations := by
        rw [ha1]
        simp only [dmap_dmap]
        congr 1
        funext x
        unfold dropDeforms dropDeform Dict.del
        simp only [List.filter_filter, Function.comp]
        congr 1
        refine List.filter_congr ?_
        intro s _
        simp only [List.mem_cons, not_or, Bool.decide_and]
        grind
      rw [this, ha1]

theorem removeSkins_after {names : List Str} : ∀ {a a' : AnimData F} {r : List (Option Str) × List Str},
    removeSkins names a = (.ok r, a') → PlainTargets a names →
      All₂ (SkinAfter a names) (a.skins.filter (fun s => s.name ∉ names)) a'.skins := by
  induction names with
  | nil =>
    intro a a' r h _
    simp only [removeSkins, Prod.mk.injEq] at h
    rw [← h.2, List.filter_eq_self.2 (by simp)]
    have refl : ∀ {α : Type} {R : α → α → Prop} (l : List α), (∀ x, R x x) → All₂ R l l := by
      intro α R l hr
      induction l with
      | nil => exact .nil
      | cons x l ih => exact .cons (hr x) ih
    exact refl _ (fun s => ⟨rfl, refl _ (fun p => ⟨rfl, refl _ (fun q => ⟨rfl, .same (by simp)⟩)⟩)⟩)
  | cons n ns ih =>
    intro a a' r h hpl
    obtain ⟨i, s, is, rs, a1, h1, h2, _⟩ := removeSkins_cons h
    obtain ⟨gone, hg, _, hsk, ha1⟩ := removeSkin_skins h1
    have hn : n ∉ ns := (List.nodup_cons.1 (removeSkins_facts h).2.1).1
    -- the skin a linked mesh refers to, before this removal
    have back : ∀ m gone1, m ≠ n → IsSkin a1.skins m gone1 → ∃ gone0, IsSkin a.skins m gone0 ∧ SkinRel gone n gone0 gone1 := by
      intro m gone1 hm hs
      rw [← getSkin_some] at hs
      unfold getSkin at hs
      obtain ⟨g0, e0, hr⟩ := hsk.find (p := fun s => s.name == m) (fun x y h => by rw [h.1]) hs
      refine ⟨g0, ?_, hr⟩
      rw [← getSkin_some]
      unfold getSkin
      rw [List.find?_filter] at e0
      rw [← e0]
      congr 1
      funext s
      by_cases h : s.name = m
      · simp [h, hm]
      · simp [h]
    have target : ∀ m slot key x p1 gone1, m ∈ ns → a.HasAtt slot key x → x.LinksTo m → IsSkin a1.skins m gone1 → gone1.At slot key p1 →
        ∃ gone0, IsSkin a.skins m gone0 ∧ gone0.At slot key p1 ∧ p1.kind ≠ .linked := by
      intro m slot key x p1 gone1 hm hx hl hs hp
      obtain ⟨gone0, h0, hr⟩ := back m gone1 (fun e => hn (e ▸ hm)) hs
      obtain ⟨p0, hp0, hk⟩ := Spine.SkinRel.at_plain hr hp
      have hpk := hpl slot key x m hx (by simp [hm]) hl gone0 h0 p0 hp0
      rw [hk hpk]
      exact ⟨gone0, h0, hp0, hpk⟩
    -- attachments after this removal
    have cases1 : ∀ slot key x x1, a.HasAtt slot key x → Relinked gone n slot key x x1 →
        (¬ x.LinksTo n ∧ x1 = x) ∨ (x.LinksTo n ∧ x1.kind ≠ .linked ∧ ∃ p, gone.At slot key p ∧ CopyOf p x x1) := by
      intro slot key x x1 hx hr
      rcases AttAfter.of_relinked hr with h | ⟨hl, p, hp, hc⟩
      · exact .inl h
      · refine .inr ⟨hl, ?_, p, hp, hc⟩
        rw [hc.kind]
        exact hpl slot key x n hx (by simp) hl gone ((getSkin_some a n gone).1 hg) p hp
    have hpl1 : PlainTargets a1 ns := by
      rintro slot key x1 m ⟨s1, hs1, d1, hd1, hx1⟩ hm hl gone1 hg1 p1 hp1
      obtain ⟨s0, hs0, hr⟩ := hsk.right hs1
      rw [List.mem_filter] at hs0
      rcases hr.2 with ⟨e, _⟩ | ⟨_, hr⟩
      · simp [e] at hs0
      obtain ⟨⟨slot', d0⟩, hd0, e1, hr⟩ := hr.right hd1
      obtain ⟨⟨key', x0⟩, hx0, e2, hr⟩ := hr.right hx1
      simp only at e1 e2 hr
      subst e1 e2
      have hx : a.HasAtt slot key x0 := ⟨s0, hs0.1, d0, hd0, hx0⟩
      rcases cases1 slot key x0 x1 hx hr with ⟨_, rfl⟩ | ⟨_, hk, _⟩
      · obtain ⟨_, _, _, h⟩ := target m slot key _ p1 gone1 hm hx hl hg1 hp1
        exact h
      · exact absurd hl.1 hk
    have hih := ih h2 hpl1
    have hsk' : All₂ (fun s s1 => SkinRel gone n s s1) (a.skins.filter (fun s => s.name ∉ n :: ns)) (a1.skins.filter (fun s => s.name ∉ ns)) := by
      have := hsk.filter (p := fun s => decide (s.name ∉ ns)) (q := fun s => decide (s.name ∉ ns)) (fun x y _ _ h => by rw [h.1])
      rw [List.filter_filter] at this
      have e : a.skins.filter (fun s => s.name ∉ n :: ns) = a.skins.filter (fun s => decide (s.name ∉ ns) && decide (s.name ≠ n)) := by
        refine List.filter_congr ?_
        intro s _
        simp only [List.mem_cons, not_or, Bool.decide_and]
        exact Bool.and_comm _ _
      rw [e]; exact this
    refine hsk'.comp hih ?_
    intro s s1 s' hs _ hr hafter
    rw [List.mem_filter] at hs
    refine ⟨hafter.name.trans hr.1, ?_⟩
    rcases hr.2 with ⟨e, _⟩ | ⟨_, hr⟩
    · simp [e] at hs
    refine hr.comp hafter.atts ?_
    rintro ⟨slot, d⟩ ⟨slot1, d1⟩ ⟨slot2, d2⟩ hd _ ⟨e1, hr⟩ ⟨e2, hf⟩
    simp only at e1 e2 hr hf
    subst e1
    refine ⟨e2, hr.comp hf ?_⟩
    rintro ⟨key, x⟩ ⟨key1, x1⟩ ⟨key2, x2⟩ hx _ ⟨e3, hr⟩ ⟨e4, hf⟩
    simp only at e3 e4 hr hf ⊢
    subst e3
    refine ⟨e4, ?_⟩
    have hx : a.HasAtt slot1 key1 x := ⟨s, hs.1, d, hd, hx⟩
    rcases cases1 slot1 key1 x x1 hx hr with ⟨hno, rfl⟩ | ⟨hl, hk, p, hp, hc⟩
    · cases hf with
      | same h =>
        refine .same ?_
        intro m hm
        rcases List.mem_cons.1 hm with rfl | hm
        · exact hno
        · exact h m hm
      | @copy m gone1 p1 _ hm hl hg1 hp1 hc =>
        obtain ⟨gone0, h0, hp0, _⟩ := target m _ _ _ p1 gone1 hm hx hl hg1 hp1
        exact .copy (by simp [hm]) hl h0 hp0 hc
    · cases hf with
      | same h => exact .copy (by simp) hl ((getSkin_some a n gone).1 hg) hp hc
      | copy _ hl' _ _ _ => exact absurd hl'.1 hk

end Editor
end Spine
