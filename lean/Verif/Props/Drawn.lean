import Verif.Spec.Drawn
import Verif.Props.Clean
import Verif.Lemmas.CleanTotal
import Verif.Props.CleanExamples
/-
C62: `clean_animation` does not change what is drawn.
-/
set_option linter.unusedSectionVars false
set_option linter.unusedSimpArgs false
namespace Spine
open JVal Graph Container
variable {F : Type} [PyRt F]

/-! ## Specification -/

/-- what the documents of the Spine editor never have: a timeline of a slot without keyframes, and an attachment called "None" -/
structure AnimData.Ordinary (a : AnimData F) : Prop where
  timelines : ∀ p ∈ a.animations, ∀ q ∈ p.2.slots, q.2.attachment ≠ [] ∨ q.2.Coloured
  none : ∀ slot x, ¬ a.HasAtt slot s!!"None" x

/-- every drawOrder keyframe is one Spine can apply -/
def AnimData.GoodOrders (a : AnimData F) : Prop :=
  ∀ p ∈ a.animations, ∀ t ∈ p.2.drawOrder, (Dict.keys t.offsets).Nodup ∧ DrawOrder.Valid Slot.name t.offsets a.slots

/-- no drawOrder keyframe leaves a slot it moves where it stands in the setup pose, once the slots `ids` are not counted -/
def AnimData.Moving (a : AnimData F) (ids : List Str) : Prop :=
  ∀ p ∈ a.animations, ∀ t ∈ p.2.drawOrder, ∀ L, DrawOrder.Realises Slot.name t.offsets a.slots L →
    ∀ (n : Str) (i : Nat), n ∈ Dict.keys t.offsets → n ∉ ids →
      ¬ (((a.slots.filter (fun s => s.name ∉ ids)).map (·.name))[i]? = some n ∧ ((L.filter (fun s => s.name ∉ ids)).map (·.name))[i]? = some n)

/-! ## Proofs -/

theorem AnimData.SkinHas.has {a : AnimData F} {skin slot k : Str} {x : Att F} (h : a.SkinHas skin slot k x) : a.HasAtt slot k x := by
  obtain ⟨s, hs, _, hx⟩ := h
  exact ⟨s, hs, hx⟩

theorem AnimData.Finds.has {a : AnimData F} {skin slot k sk : Str} {x : Att F} (h : a.Finds skin slot k sk x) :
    a.HasAtt slot k x ∧ a.SkinHas sk slot k x := by
  cases h with
  | active e h => subst e; exact ⟨h.has, h⟩
  | default e _ h => subst e; exact ⟨h.has, h⟩

theorem Anim.colours_of {x : Anim F} {n : Str} {t : SlotTl F} (hn : (Dict.keys x.slots).Nodup) (h : (n, t) ∈ x.slots) :
    x.colours n = (t.color, t.twoColor) := by
  unfold Anim.colours
  rw [Dict.get?_of_mem hn h]

theorem Anim.colours_none {x : Anim F} {n : Str} (h : n ∉ Dict.keys x.slots) : x.colours n = ([], []) := by
  unfold Anim.colours
  cases hg : Dict.get? x.slots n with
  | none => rfl
  | some t => exact absurd (Dict.mem_keys_of_get? hg) h

/-- a slot that draws something is shown, and the name is used -/
theorem AnimData.Draws.used {a : AnimData F} {n : Str} {m : Moment F} {skin : Str} {p : Sprite F} (hd : a.DistinctAnims)
    (ho : a.Ordinary) (h : a.Draws n m skin p) : (∃ x, (n, x) ∈ a.animations ∧ x.Shown p.slot) ∧ a.Shown p.slot ∧ a.Uses p.key := by
  obtain ⟨x, hx, hs, hc, hf, hcol, hv, _⟩ := h
  have hk : p.key ≠ s!!"None" := fun e => ho.none _ _ (e ▸ hf.has.1)
  have hn := hd.slots _ hx
  suffices key : x.Shown p.slot ∧ (p.slot.attachment = some p.key ∨ ∃ t, (p.slot.name, t) ∈ x.slots ∧ t.Shows p.key) from
    ⟨⟨x, hx, key.1⟩, ⟨n, x, hx, key.1⟩, n, x, hx, p.slot, hs, key.1, key.2⟩
  cases hc with
  | setup h1 h2 =>
    rw [Anim.colours_none h1, Prod.mk.injEq] at hcol
    refine ⟨.setup h1 (fun ht => ?_) (fun hp => ?_), .inl h2⟩
    · rcases hv ht with h | h
      · exact h hcol.1
      · exact h hcol.2
    · rw [hp.attachment] at h2; cases h2
  | @before t h1 h2 h3 =>
    rw [Anim.colours_of hn h1, Prod.mk.injEq] at hcol
    refine ⟨.timeline h1 ?_ ?_ ?_, .inl h3⟩
    · rintro ⟨hnc, h | ⟨f, hf', _, hz⟩⟩
      · rcases ho.timelines _ hx _ h1 with h' | h'
        · exact h' h
        · exact hnc h'
      · exact h2 f (by rw [hf']; simp) (m.zero _ hz)
    · intro ht
      unfold SlotTl.Coloured
      rw [← hcol.1, ← hcol.2]; exact hv ht
    · intro hp
      rw [hp.attachment] at h3; cases h3
  | @keyframe t l r f h1 h2 h3 h4 h5 =>
    rw [Anim.colours_of hn h1, Prod.mk.injEq] at hcol
    have hsh : t.Shows p.key := ⟨f, by rw [h2]; simp, h5, hk⟩
    refine ⟨.timeline h1 ?_ ?_ (fun _ => ⟨_, hsh⟩), .inr ⟨t, h1, hsh⟩⟩
    · rintro ⟨_, h | ⟨g, hg, hcl, _⟩⟩
      · rw [h] at h2; simp at h2
      · rw [hg] at h2
        have : f = g := by
          cases l with
          | nil => simp at h2; exact h2.1.symm
          | cons a l => simp at h2
        subst this
        rcases hcl with h | h
        · rw [h5] at h; cases h
        · rw [h5] at h; injection h with h; exact hk h
    · intro ht
      unfold SlotTl.Coloured
      rw [← hcol.1, ← hcol.2]; exact hv ht

namespace Editor
variable {e e' : Editor F} {ids atts : List Str}

theorem current_cleaned {skins : List Str} {orig : List (Slot F)} {x x' : Anim F} (hc : Anim.Cleaned ids atts skins orig x x') {m : Moment F}
    {s : Slot F} {k : Str} (hs : s.name ∉ ids) : x'.Current m s k ↔ x.Current m s k := by
  have hm : ∀ t, (s.name, t) ∈ x'.slots ↔ (s.name, t) ∈ x.slots := by
    intro t
    rw [hc.slots, List.mem_filter]
    simp [hs]
  have hk : s.name ∈ Dict.keys x'.slots ↔ s.name ∈ Dict.keys x.slots := by
    unfold Dict.keys
    simp only [List.mem_map]
    constructor
    · rintro ⟨⟨n, t⟩, h, e⟩
      simp only at e; subst e
      exact ⟨_, (hm t).1 h, rfl⟩
    · rintro ⟨⟨n, t⟩, h, e⟩
      simp only at e; subst e
      exact ⟨_, (hm t).2 h, rfl⟩
  constructor
  · intro h
    cases h with
    | setup h1 h2 => exact .setup (fun h => h1 (hk.2 h)) h2
    | before h1 h2 h3 => exact .before ((hm _).1 h1) h2 h3
    | keyframe h1 h2 h3 h4 h5 => exact .keyframe ((hm _).1 h1) h2 h3 h4 h5
  · intro h
    cases h with
    | setup h1 h2 => exact .setup (fun h => h1 (hk.1 h)) h2
    | before h1 h2 h3 => exact .before ((hm _).2 h1) h2 h3
    | keyframe h1 h2 h3 h4 h5 => exact .keyframe ((hm _).2 h1) h2 h3 h4 h5

theorem get?_filter_keep {α : Type} (d : Dict α) (ids : List Str) (n : Str) (h : n ∉ ids) :
    Dict.get? (d.filter (fun p => p.1 ∉ ids)) n = Dict.get? d n := by
  induction d with
  | nil => rfl
  | cons p d ih =>
    obtain ⟨k, v⟩ := p
    by_cases hk : k ∈ ids
    · rw [List.filter_cons_of_neg (by simpa using hk), ih, Dict.get?, if_neg]
      intro e; subst e; exact h hk
    · rw [List.filter_cons_of_pos (by simpa using hk), Dict.get?, Dict.get?, ih]

theorem colours_cleaned {skins : List Str} {orig : List (Slot F)} {x x' : Anim F} (hc : Anim.Cleaned ids atts skins orig x x') {n : Str}
    (hs : n ∉ ids) : x'.colours n = x.colours n := by
  unfold Anim.colours
  rw [hc.slots, get?_filter_keep _ _ _ hs]

theorem deforms_cleaned {skins : List Str} {orig : List (Slot F)} {x x' : Anim F} (hc : Anim.Cleaned ids atts skins orig x x')
    {skin n k : Str} (hs : n ∉ ids) (hk : k ∉ atts) : x'.deforms skin n k = x.deforms skin n k := by
  unfold Anim.deforms
  rw [hc.deform]
  cases Dict.get? x.deform skin with
  | none => rfl
  | some d =>
    simp only [Option.map_some, Option.bind_some]
    have hg : ∀ d : Dict (Dict (List (Attrs F))), (Dict.get? (Anim.cutTl atts d) n).bind (fun d => Dict.get? d k) =
        (Dict.get? d n).bind (fun d => Dict.get? d k) := by
      intro d
      unfold Anim.cutTl dmap
      induction d with
      | nil => rfl
      | cons p d ih =>
        obtain ⟨q, v⟩ := p
        simp only [List.map_cons, Dict.get?]
        split
        · simp only [Option.bind_some]; exact get?_filter_keep _ _ _ hk
        · exact ih
    split
    · rw [hg, get?_filter_keep _ _ _ hs]
    · rw [get?_filter_keep _ _ _ hs]

theorem skinHas_cleaned (hs : Sync e) (h : clean e = (.ok (ids, atts), e')) (skin slot k : Str) (x : Att F) :
    e'.data.SkinHas skin slot k x ↔ e.data.SkinHas skin slot k x ∧ slot ∉ ids ∧ k ∉ atts := by
  unfold AnimData.SkinHas
  rw [result_skins hs h]
  constructor
  · rintro ⟨s, hm, e1, hx⟩
    obtain ⟨s0, h0, rfl⟩ := List.mem_map.1 hm
    have := mem_cutSkin.1 hx
    exact ⟨⟨s0, h0, e1, this.1⟩, this.2⟩
  · rintro ⟨⟨s, hm, e1, hx⟩, h2⟩
    exact ⟨_, List.mem_map_of_mem hm, e1, mem_cutSkin.2 ⟨hx, h2⟩⟩

theorem finds_cleaned (hs : Sync e) (h : clean e = (.ok (ids, atts), e')) {skin slot k sk : Str} {x : Att F} (h1 : slot ∉ ids) (h2 : k ∉ atts) :
    e'.data.Finds skin slot k sk x ↔ e.data.Finds skin slot k sk x := by
  have key : ∀ skin x, e'.data.SkinHas skin slot k x ↔ e.data.SkinHas skin slot k x := by
    intro skin x
    rw [skinHas_cleaned hs h]; simp [h1, h2]
  constructor
  · intro h
    cases h with
    | active e h => exact .active e ((key _ _).1 h)
    | default e h h' => exact .default e (fun y hy => h y ((key _ _).2 hy)) ((key _ _).1 h')
  · intro h
    cases h with
    | active e h => exact .active e ((key _ _).2 h)
    | default e h h' => exact .default e (fun y hy => h y ((key _ _).1 hy)) ((key _ _).2 h')

theorem draws_kept (hs : Sync e) (ho : e.data.Ordinary) (h : clean e = (.ok (ids, atts), e')) {n : Str} {m : Moment F} {skin : Str}
    {p : Sprite F} (hd : e.data.Draws n m skin p) : p.slot.name ∉ ids ∧ p.key ∉ atts := by
  obtain ⟨_, h1, h2⟩ := hd.used hs.anims ho
  obtain ⟨x, _, hm, _, hf, _⟩ := hd
  have hk : p.key ∉ atts := fun hc => ((mem_atts hs h _).1 hc).1 h2
  refine ⟨fun hc => ?_, hk⟩
  obtain ⟨s, hsl, e1, hno⟩ := (mem_ids hs h _).1 hc
  have : s = p.slot := nodup_map_inj hs.slotNames hsl hm e1
  subst this
  rcases hno with hno | hno
  · exact hno h1
  · exact hno ⟨_, _, hf.has.1, hk⟩

theorem clean_draws (hs : Sync e) (ho : e.data.Ordinary) (h : clean e = (.ok (ids, atts), e')) (n : Str) (m : Moment F) (skin : Str)
    (p : Sprite F) : e'.data.Draws n m skin p ↔ e.data.Draws n m skin p := by
  have ha := clean_anims_sync hs h
  have hsl := result_slots hs h
  constructor
  · rintro ⟨x', hx', hm, hc, hf, hcol, hv, hdf⟩
    obtain ⟨⟨n0, x⟩, hx, e1, hcl⟩ := ha.right hx'
    simp only at e1 hcl; subst e1
    rw [hsl, List.mem_filter] at hm
    have hid : p.slot.name ∉ ids := by simpa using hm.2
    have hat : p.key ∉ atts := ((result_hasAtt hs h _ _ _).1 hf.has.1).2.2
    refine ⟨x, hx, hm.1, (current_cleaned hcl hid).1 hc, (finds_cleaned hs h hid hat).1 hf, ?_, hv, ?_⟩
    · rw [hcol, colours_cleaned hcl hid]
    · rw [hdf, deforms_cleaned hcl hid hat]
  · intro hd
    obtain ⟨hid, hat⟩ := draws_kept hs ho h hd
    obtain ⟨x, hx, hm, hc, hf, hcol, hv, hdf⟩ := hd
    obtain ⟨⟨n', x'⟩, hx', e1, hcl⟩ := ha.left hx
    simp only at e1 hcl; subst e1
    refine ⟨x', hx', ?_, (current_cleaned hcl hid).2 hc, (finds_cleaned hs h hid hat).2 hf, ?_, hv, ?_⟩
    · rw [hsl, List.mem_filter]; exact ⟨hm, by simpa using hid⟩
    · rw [hcol, colours_cleaned hcl hid]
    · rw [hdf, deforms_cleaned hcl hid hat]

/-! ## C62 -/

/-- C62: at every moment of every animation and with every active skin, exactly the same is drawn after `clean_animation` as
before: the same attachments on the same slots with the same attributes, colours and shapes.
Missing: documents with a timeline without keyframes or an attachment called "None", for which it is false
(`c62_counterexample_empty`, `c62_counterexample_none`), and names that contain the suffixes of the graph ids
(`c40_counterexample`). -/
theorem c62_drawn_partial (hr : Ran e) (ho : e.data.Ordinary) (h : clean e = (.ok (ids, atts), e')) (n : Str) (m : Moment F)
    (skin : Str) (p : Sprite F) : e'.data.Draws n m skin p ↔ e.data.Draws n m skin p := clean_draws hr.sync ho h n m skin p

/-! ## The order -/

theorem _root_.Spine.All₂.append_left {α β : Type} {R : α → β → Prop} {l r : List α} {l' : List β} (h : All₂ R (l ++ r) l') :
    ∃ a b, l' = a ++ b ∧ All₂ R l a ∧ All₂ R r b := by
  induction l generalizing l' with
  | nil => exact ⟨[], l', rfl, .nil, h⟩
  | cons x l ih =>
    cases h with
    | cons h1 h2 =>
      obtain ⟨a, b, rfl, h3, h4⟩ := ih h2
      exact ⟨_ :: a, b, rfl, .cons h1 h3, h4⟩

theorem get?_offsetDict_aux (offs : List (Str × Int)) (acc : Dict Int) (hn : (Dict.keys offs).Nodup)
    (hd : ∀ k ∈ Dict.keys offs, k ∉ Dict.keys acc) (k : Str) :
    Dict.get? (offs.foldl (fun d p => Dict.set d p.1 p.2) acc) k = (Dict.get? acc k).or (Dict.get? offs k) := by
  induction offs generalizing acc with
  | nil =>
    rw [List.foldl_nil]
    cases Dict.get? acc k <;> rfl
  | cons p offs ih =>
    obtain ⟨q, o⟩ := p
    have hn' := hn
    simp only [Dict.keys, List.map_cons, List.nodup_cons] at hn
    rw [List.foldl_cons, ih _ hn.2 ?_, Dict.get?_set]
    · have hq := hd q (by simp [Dict.keys])
      by_cases e : q = k
      · subst e
        have : Dict.get? acc q = none := by
          cases hg : Dict.get? acc q with
          | none => rfl
          | some v => exact absurd (Dict.mem_keys_of_get? hg) hq
        simp [this, Dict.get?]
      · have e' : ¬ k = q := fun h => e h.symm
        simp [e, e', Dict.get?]
    · intro k' hk' hc
      rw [Dict.keys_set] at hc
      split at hc
      · exact hd k' (by simp only [Dict.keys, List.map_cons, List.mem_cons]; exact .inr hk') hc
      · rcases List.mem_append.1 hc with hc | hc
        · exact hd k' (by simp only [Dict.keys, List.map_cons, List.mem_cons]; exact .inr hk') hc
        · simp only [List.mem_singleton] at hc
          subst hc; exact hn.1 hk'

theorem get?_offsetDict (offs : List (Str × Int)) (hn : (Dict.keys offs).Nodup) (k : Str) :
    Dict.get? (DrawOrder.offsetDict offs) k = Dict.get? offs k := by
  unfold DrawOrder.offsetDict
  rw [get?_offsetDict_aux offs [] hn (by simp [Dict.keys])]; rfl

theorem realises_congr {α : Type} {name : α → Str} {offs offs' : Dict Int} {orig L : List α} (h : ∀ k, Dict.get? offs' k = Dict.get? offs k)
    (hr : DrawOrder.Realises name offs orig L) : DrawOrder.Realises name offs' orig L := by
  refine ⟨hr.perm, ?_, ?_⟩
  · intro i s o hi ho; rw [h] at ho; exact hr.placed i s o hi ho
  · simp only [h]; exact hr.others

theorem valid_congr {α : Type} {name : α → Str} {offs offs' : Dict Int} {orig : List α} (h : ∀ k, Dict.get? offs' k = Dict.get? offs k)
    (hk : ∀ k ∈ Dict.keys offs', k ∈ Dict.keys offs) (hr : DrawOrder.Valid name offs orig) : DrawOrder.Valid name offs' orig := by
  refine ⟨fun k hk' => hr.known k (hk k hk'), ?_, ?_⟩
  · intro i s o hi ho; rw [h] at ho; exact hr.inside i s o hi ho
  · intro i j s t o p hi hj ho hp; rw [h] at ho hp; exact hr.distinct i j s t o p hi hj ho hp

theorem clean_order (hs : Sync e) (hg : e.data.GoodOrders) (h : clean e = (.ok (ids, atts), e')) (hz : e.data.Moving ids) {n : Str}
    {m : Moment F} {L : List (Slot F)} (ho : e.data.Order n m L) : e'.data.Order n m (L.filter (fun s => s.name ∉ ids)) := by
  have ha := clean_anims_sync hs h
  have hsl := result_slots hs h
  cases ho with
  | @setup x hx hno hL =>
    obtain ⟨⟨n', x'⟩, hx', e1, hcl⟩ := ha.left hx
    simp only at e1 hcl; subst e1
    refine .setup hx' ?_ (by rw [hL, hsl])
    intro t' ht'
    obtain ⟨t, ht, e1, _⟩ := hcl.draw.right ht'
    rw [e1]; exact hno t ht
  | @keyframe x l r t hx hl hre hno hL =>
    obtain ⟨⟨n', x'⟩, hx', e1, hcl⟩ := ha.left hx
    simp only at e1 hcl; subst e1
    have hd := hcl.draw
    rw [hl] at hd
    obtain ⟨l', r', e2, hl', hr'⟩ := hd.append_left
    cases hr' with
    | @cons _ t' _ r' ht hr' =>
    have ht0 : t ∈ x.drawOrder := by rw [hl]; simp
    obtain ⟨hnd, hv⟩ := hg _ hx t ht0
    have hq : ∀ k, Dict.get? (DrawOrder.offsetDict t.offsets) k = Dict.get? t.offsets k := get?_offsetDict _ hnd
    have hq' : ∀ k ∈ Dict.keys (DrawOrder.offsetDict t.offsets), k ∈ Dict.keys t.offsets := fun k => (mem_keys_offsetDict _ _).1
    obtain ⟨N, hN, hre', _⟩ := DrawOrder.c44_preserved_partial (name := Slot.name) ids e.data.slots L t.offsets hs.slotNames
      (valid_congr hq hq' hv) (realises_congr hq hL) (fun n i h1 h2 => hz _ hx t ht0 L hL n i (hq' n h1) h2)
    rw [ht.2] at hN
    injection hN with hN
    refine .keyframe hx' e2 (by rw [ht.1]; exact hre) ?_ ?_
    · intro u' hu'
      obtain ⟨u, hu, e3, _⟩ := hr'.right hu'
      rw [e3]; exact hno u hu
    · rw [hsl, hN]; exact hre'

/-- C62 with the order: the picture is the same, from back to front.  Missing, besides the cases above: drawOrder keyframes that
Spine cannot apply, and those that leave a moved slot where it stands among the remaining slots of the setup pose, for which the
order can change (`c44_counterexample`). -/
theorem c62_picture_partial (hr : Ran e) (ho : e.data.Ordinary) (hg : e.data.GoodOrders) (h : clean e = (.ok (ids, atts), e'))
    (hz : e.data.Moving ids) (n : Str) (m : Moment F) (skin : Str) (l : List (Sprite F)) (hp : e.data.Picture n m skin l) :
    e'.data.Picture n m skin l := by
  refine ⟨fun p => (hp.drawn p).trans (clean_draws hr.sync ho h n m skin p).symm, ?_⟩
  obtain ⟨L, hL, hsub⟩ := hp.order
  refine ⟨_, clean_order hr.sync hg h hz hL, ?_⟩
  have : (l.map (·.slot)).filter (fun s => s.name ∉ ids) = l.map (·.slot) := by
    rw [List.filter_eq_self]
    intro s hs
    obtain ⟨p, hp', rfl⟩ := List.mem_map.1 hs
    simpa using (draws_kept hr.sync ho h ((hp.drawn p).1 hp')).1
  rw [← this]
  exact hsub.filter _

end Editor
end Spine
