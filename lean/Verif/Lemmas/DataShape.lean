import Verif.Lemmas.Data
/- What the constructors produce: every loaded object has the attributes of its class. -/
namespace Spine
open JVal
set_option linter.unusedSectionVars false
set_option linter.unusedSimpArgs false
variable {F : Type} [PyRt F]

theorem bindOk {α β : Type} {x : Except Err α} {f : α → Except Err β} {b : β} (h : x.bind f = .ok b) :
    ∃ a, x = .ok a ∧ f a = .ok b := by
  cases x with
  | error e => cases h
  | ok a => exact ⟨a, rfl, h⟩

theorem mapE_back {α β : Type} {f : α → Except Err β} {l : List α} {ys : List β} (h : mapE f l = .ok ys) :
    ∀ y ∈ ys, ∃ x ∈ l, f x = .ok y := by
  induction l generalizing ys with
  | nil => cases h; simp
  | cons a as ih =>
    unfold mapE at h
    cases h1 : f a with
    | error e => rw [h1] at h; cases h
    | ok b =>
      rw [h1] at h
      cases h2 : mapE f as with
      | error e => rw [h2] at h; cases h
      | ok bs =>
        rw [h2] at h
        injection h with h
        subst h
        intro y hy
        rcases List.mem_cons.1 hy with e | hy
        · exact ⟨a, by simp, e ▸ h1⟩
        · obtain ⟨x, hx, e⟩ := ih h2 y hy
          exact ⟨x, by simp [hx], e⟩

theorem mapE_forth {α β : Type} {f : α → Except Err β} {l : List α} {ys : List β} (h : mapE f l = .ok ys) :
    ∀ x ∈ l, ∃ y ∈ ys, f x = .ok y := by
  induction l generalizing ys with
  | nil => simp
  | cons a as ih =>
    unfold mapE at h
    cases h1 : f a with
    | error e => rw [h1] at h; cases h
    | ok b =>
      rw [h1] at h
      cases h2 : mapE f as with
      | error e => rw [h2] at h; cases h
      | ok bs =>
        rw [h2] at h
        injection h with h
        subst h
        intro x hx
        rcases List.mem_cons.1 hx with e | hx
        · subst e; exact ⟨b, by simp, h1⟩
        · obtain ⟨y, hy, e⟩ := ih h2 x hx
          exact ⟨y, by simp [hy], e⟩

theorem mapE_length {α β : Type} {f : α → Except Err β} {l : List α} {ys : List β} (h : mapE f l = .ok ys) :
    ys.length = l.length := by
  induction l generalizing ys with
  | nil => cases h; rfl
  | cons a as ih =>
    unfold mapE at h
    split at h
    · cases h
    · split at h
      · cases h
      · rename_i bs h2
        injection h with h
        subst h
        simp [ih h2]

theorem mapD_back {α β : Type} {f : α → Except Err β} {d : Dict α} {e : Dict β} (h : mapD f d = .ok e) :
    ∀ p ∈ e, ∃ x, (p.1, x) ∈ d ∧ f x = .ok p.2 := by
  intro p hp
  obtain ⟨⟨k, x⟩, hm, hx⟩ := mapE_back h p hp
  simp only at hx
  split at hx
  · rename_i b hb
    injection hx with hx
    subst hx
    exact ⟨x, hm, hb⟩
  · cases hx

theorem mapD_forth {α β : Type} {f : α → Except Err β} {d : Dict α} {e : Dict β} (h : mapD f d = .ok e) :
    ∀ p ∈ d, ∃ y, f p.2 = .ok y := by
  intro p hp
  obtain ⟨y, _, hy⟩ := mapE_forth h p hp
  split at hy
  · rename_i b hb; exact ⟨b, hb⟩
  · cases hy

theorem mapD_keys {α β : Type} {f : α → Except Err β} {d : Dict α} {e : Dict β} (h : mapD f d = .ok e) :
    Dict.keys e = Dict.keys d := by
  unfold mapD at h
  induction d generalizing e with
  | nil => cases h; rfl
  | cons p r ih =>
    unfold mapE at h
    split at h
    · cases h
    · rename_i b hb
      split at h
      · cases h
      · rename_i bs h2
        injection h with h
        subst h
        have : b.1 = p.1 := by
          split at hb
          · injection hb with hb; rw [← hb]
          · cases hb
        simp only [Dict.keys, List.map_cons, this] at ih ⊢
        rw [ih h2]

theorem Cls.init_ok {c : Cls F} {v : JVal F} {a : Attrs F} (h : c.init v = .ok a) :
    ∃ d, c.values v = .ok d ∧ Cls.check c.attrs c.required d = .ok () ∧
      a = c.attrs.map (fun k => (k, (Dict.get? d k).getD .null)) := by
  obtain ⟨d, h1, h⟩ := bindOk h
  obtain ⟨u, h2, h⟩ := bindOk h
  injection h with h
  exact ⟨d, h1, h2, h.symm⟩

theorem Cls.keys_init {c : Cls F} {v : JVal F} {a : Attrs F} (h : c.init v = .ok a) : Dict.keys a = c.attrs := by
  obtain ⟨d, _, _, e⟩ := Cls.init_ok h
  subst e
  simp [Dict.keys, List.map_map, Function.comp_def]

theorem get?_table (l : List Str) (f : Str → JVal F) (k : Str) :
    Dict.get? (l.map (fun k => (k, f k))) k = if k ∈ l then some (f k) else none := by
  induction l with
  | nil => rfl
  | cons x r ih =>
    simp only [List.map_cons, Dict.get?, ih]
    by_cases e : x = k
    · subst e; simp
    · have : k ≠ x := fun h => e h.symm
      simp [e, this]

theorem Cls.get?_init {c : Cls F} {d : Dict (JVal F)} {a : Attrs F} (h : c.init (.dict d) = .ok a) (k : Str) :
    Dict.get? a k = if k ∈ c.attrs then some ((Dict.get? d k).getD .null) else none := by
  obtain ⟨d', h1, _, e⟩ := Cls.init_ok h
  rw [Cls.values_dict] at h1
  injection h1 with h1
  subst h1
  rw [e]
  exact get?_table _ _ k

/-! ### Objects -/

theorem Bone.good_init {v : JVal F} {x : Bone F} (h : Bone.init v = .ok x) : Bone.Good x := by
  obtain ⟨a, h1, h⟩ := bindOk h
  have hk := Cls.keys_init h1
  obtain ⟨n, h2, h⟩ := bindOk h
  cases n with
  | none => cases h
  | some n =>
    obtain ⟨p, h3, h⟩ := bindOk h
    injection h with h
    subst h
    have hn : (Dict.keys a).Nodup := by rw [hk]; exact (Cls.leafClasses_ok (boneCls (F := F)) (by simp [leafClasses])).nodup
    unfold Bone.Good Bone.attrs
    match a, hk, hn with
    | [], hk, _ => simp [Dict.keys, boneCls] at hk
    | [_], hk, _ => simp [Dict.keys, boneCls] at hk
    | p1 :: p2 :: r, hk, hn =>
      have e1 : p1.1 = s!!"name" := by
        simp only [Dict.keys, List.map_cons, boneCls, List.cons.injEq] at hk; exact hk.1
      have e2 : p2.1 = s!!"parent" := by
        simp only [Dict.keys, List.map_cons, boneCls] at hk
        exact (List.cons.inj (List.cons.inj hk).2).1
      rw [without_cons (by simp [e1]), without_cons (by simp [e2]), without_self]
      · simp only [Dict.keys, List.map_cons] at hk ⊢
        rw [← hk, e1, e2]
      · intro k hm hc
        simp only [Dict.keys, List.map_cons, List.nodup_cons, List.mem_cons, not_or, e1, e2] at hn hm
        simp only [List.mem_cons, List.not_mem_nil, or_false] at hc
        rcases hc with e | e <;> subst e
        · exact hn.1.2 hm
        · exact hn.2.1 hm

theorem Bone.good_setDefaults {x : Bone F} (b : Bool) (h : Bone.Good x) : Bone.Good (x.setDefaults b) := by
  unfold Bone.Good Bone.attrs Bone.setDefaults at *
  simp only [Dict.keys, List.map_cons] at h ⊢
  have := Cls.keys_setDefaults boneCls b x.rest
  unfold Dict.keys at this
  rw [this]; exact h

theorem SlotKf.good_init {v : JVal F} {x : SlotKf F} (h : SlotKf.init v = .ok x) : SlotKf.Good x := by
  obtain ⟨a, h1, h⟩ := bindOk h
  have hk := Cls.keys_init h1
  obtain ⟨n, h2, h⟩ := bindOk h
  injection h with h
  subst h
  have hn : (Dict.keys a).Nodup := by
    rw [hk]; exact (Cls.leafClasses_ok (slotKeyframeCls (F := F)) (by simp [leafClasses])).nodup
  unfold SlotKf.Good SlotKf.attrs
  match a, hk, hn with
  | [], hk, _ => simp [Dict.keys, slotKeyframeCls] at hk
  | p1 :: r, hk, hn =>
    have e1 : p1.1 = s!!"name" := by
      simp only [Dict.keys, List.map_cons, slotKeyframeCls] at hk; exact (List.cons.inj hk).1
    rw [without_cons (by simp [e1]), without_self]
    · simp only [Dict.keys, List.map_cons] at hk ⊢
      rw [← hk, e1]
    · intro k hm hc
      simp only [Dict.keys, List.map_cons, List.nodup_cons, e1] at hn hm
      simp only [List.mem_cons, List.not_mem_nil, or_false] at hc
      subst hc
      exact hn.1 hm

theorem SlotKf.good_setDefaults {x : SlotKf F} (b : Bool) (h : SlotKf.Good x) : SlotKf.Good (x.setDefaults b) := by
  unfold SlotKf.Good SlotKf.attrs SlotKf.setDefaults at *
  simp only [Dict.keys, List.map_cons] at h ⊢
  have := Cls.keys_setDefaults slotKeyframeCls b x.rest
  unfold Dict.keys at this
  rw [this]; exact h

theorem Att.init_ok {v : JVal F} {x : Att F} (h : Att.init v = .ok x) : ∃ d, v = .dict d ∧ Att.kindOf d = .ok x.kind ∧
    (AttKind.cls x.kind).init v = .ok x.attrs ∧ Att.typed x.attrs = true := by
  cases v with
  | dict d =>
    refine ⟨d, rfl, ?_⟩
    obtain ⟨k, h1, h⟩ := bindOk h
    obtain ⟨a, h2, h⟩ := bindOk h
    split at h
    · rename_i h3
      injection h with h
      subst h
      exact ⟨h1, h2, h3⟩
    · cases h
  | null => cases h
  | bool b => cases h
  | int i => cases h
  | flt f => cases h
  | str s => cases h
  | list l => cases h

theorem Att.good_init {v : JVal F} {x : Att F} (h : Att.init v = .ok x) : Att.Good x := by
  obtain ⟨d, e, hk, hi, ht⟩ := Att.init_ok h
  subst e
  refine ⟨Cls.keys_init hi, ht, ?_⟩
  have known : ∀ k ∈ Dict.keys d, k ∈ (AttKind.cls x.kind : Cls F).attrs := by
    obtain ⟨d', h1, h2, _⟩ := Cls.init_ok hi
    rw [Cls.values_dict] at h1
    injection h1 with h1
    subst h1
    exact (Cls.check_iff.1 h2).1
  have key : ∀ w, Dict.get? d s!!"type" = some w → Dict.get? x.attrs s!!"type" = some w := by
    intro w hw
    rw [Cls.get?_init hi, if_pos (known _ (Dict.mem_keys_of_get? hw)), hw]
    rfl
  generalize x.kind = kd at hk known
  unfold Att.kindOf at hk
  split at hk
  · injection hk with hk; exact .inl hk.symm
  · injection hk with hk; exact .inl hk.symm
  · rename_i t e
    have hw := key _ e
    have hkn := known s!!"type" (Dict.mem_keys_of_get? e)
    split at hk
    · rename_i e'; injection hk with hk; exact .inr (.inr (.inr ⟨hk.symm, e' ▸ hw⟩))
    · split at hk
      · rename_i e'; injection hk with hk; exact .inr (.inl ⟨hk.symm, e' ▸ hw⟩)
      · split at hk
        · rename_i e'; injection hk with hk; exact .inr (.inr (.inl ⟨hk.symm, e' ▸ hw⟩))
        · split at hk
          · injection hk with hk; subst hk; simp [AttKind.cls, pointCls] at hkn
          · split at hk
            · injection hk with hk; subst hk; simp [AttKind.cls, clippingCls] at hkn
            · split at hk
              · injection hk with hk; subst hk; simp [AttKind.cls, boundingBoxCls] at hkn
              · cases hk
  · cases hk

theorem Att.good_setDefaults {x : Att F} (b : Bool) (h : Att.Good x) : Att.Good (x.setDefaults b) := by
  have hget : ∀ k v, Dict.get? x.attrs k = some v → v ≠ .null →
      Dict.get? ((AttKind.cls x.kind).setDefaults b x.attrs) k = some v := by
    intro k v hv hn
    rw [Cls.get?_setDefaults, hv]
    cases v with
    | null => exact absurd rfl hn
    | _ => rfl
  refine ⟨?_, ?_, ?_⟩
  · show Dict.keys ((AttKind.cls x.kind).setDefaults b x.attrs) = _
    rw [Cls.keys_setDefaults]; exact h.keys
  · show Att.typed ((AttKind.cls x.kind).setDefaults b x.attrs) = true
    have ht := h.typed
    unfold Att.typed at ht ⊢
    rw [List.all_eq_true] at ht ⊢
    intro k hk
    have := ht k hk
    rw [Cls.get?_setDefaults]
    cases hg : Dict.get? x.attrs k with
    | none => rfl
    | some v =>
      rw [hg] at this
      cases v with
      | null =>
        have hd : Dict.get? ((AttKind.cls x.kind : Cls F).defaultsFor b) k = none := by
          simp only [List.mem_cons, List.not_mem_nil, or_false] at hk
          rcases hk with rfl | rfl <;> cases x.kind <;> cases b <;> rfl
        simp only [Option.map_some, Cls.dflt, hd, Option.getD_none]
      | str s => rfl
      | _ => simp at this
  · show (x.kind = _) ∨ _
    rcases h.kind with h1 | ⟨h1, h2⟩ | ⟨h1, h2⟩ | ⟨h1, h2⟩
    · exact .inl h1
    · exact .inr (.inl ⟨h1, hget _ _ h2 (by simp)⟩)
    · exact .inr (.inr (.inl ⟨h1, hget _ _ h2 (by simp)⟩))
    · exact .inr (.inr (.inr ⟨h1, hget _ _ h2 (by simp)⟩))

theorem keysOf_init {c : Cls F} {l : List (JVal F)} {ys : List (Attrs F)} (h : mapE c.init l = .ok ys) : KeysOf c ys := by
  intro a ha
  obtain ⟨x, _, hx⟩ := mapE_back h a ha
  exact Cls.keys_init hx

theorem keysOf_setDefaults {c : Cls F} (b : Bool) {l : List (Attrs F)} (h : KeysOf c l) : KeysOf c (l.map (c.setDefaults b)) := by
  intro a ha
  obtain ⟨x, hx, rfl⟩ := List.mem_map.1 ha
  rw [Cls.keys_setDefaults]; exact h x hx

theorem keysOf_listOf {c : Cls F} {v : JVal F} {ys : List (Attrs F)} (h : Anim.listOf c v = .ok ys) : KeysOf c ys := by
  obtain ⟨l, _, h⟩ := bindOk h
  exact keysOf_init h

theorem good_mapE {α : Type} {init : JVal F → Except Err α} {G : α → Prop} (hi : ∀ v x, init v = .ok x → G x)
    {l : List (JVal F)} {ys : List α} (h : mapE init l = .ok ys) : ∀ y ∈ ys, G y := by
  intro y hy
  obtain ⟨x, _, hx⟩ := mapE_back h y hy
  exact hi _ _ hx

theorem good_mapD {α : Type} {init : JVal F → Except Err α} {G : α → Prop} (hi : ∀ v x, init v = .ok x → G x)
    {d : Dict (JVal F)} {e : Dict α} (h : mapD init d = .ok e) : ∀ p ∈ e, G p.2 := by
  intro p hp
  obtain ⟨x, _, hx⟩ := mapD_back h p hp
  exact hi _ _ hx

theorem good_getDict {α : Type} {init : JVal F → Except Err α} {G : α → Prop} (hi : ∀ v x, init v = .ok x → G x)
    {d : Dict (JVal F)} {k : Str} {e : Dict α} (h : Anim.getDict d k init = .ok e) : ∀ p ∈ e, G p.2 := by
  unfold Anim.getDict at h
  split at h
  · injection h with h; subst h; simp
  · obtain ⟨d', _, h⟩ := bindOk h
    exact good_mapD hi h

theorem good_map {α : Type} {G : α → Prop} {f : α → α} (hf : ∀ x, G x → G (f x)) {l : List α} (h : ∀ x ∈ l, G x) :
    ∀ x ∈ l.map f, G x := by
  intro x hx
  obtain ⟨y, hy, rfl⟩ := List.mem_map.1 hx
  exact hf y (h y hy)

theorem good_dmap {α : Type} {G : α → Prop} {f : α → α} (hf : ∀ x, G x → G (f x)) {l : Dict α} (h : ∀ p ∈ l, G p.2) :
    ∀ p ∈ dmap f l, G p.2 := by
  intro x hx
  obtain ⟨y, hy, rfl⟩ := List.mem_map.1 hx
  exact hf y.2 (h y hy)

theorem SlotTl.good_init {v : JVal F} {x : SlotTl F} (h : SlotTl.init v = .ok x) : SlotTl.Good x := by
  obtain ⟨d, _, h⟩ := bindOk h
  obtain ⟨_, _, h⟩ := bindOk h
  obtain ⟨a, h1, h⟩ := bindOk h
  obtain ⟨_, _, h⟩ := bindOk h
  obtain ⟨c, h2, h⟩ := bindOk h
  obtain ⟨_, _, h⟩ := bindOk h
  obtain ⟨t, h3, h⟩ := bindOk h
  obtain ⟨_, _, h⟩ := bindOk h
  injection h with h
  subst h
  exact ⟨good_mapE (fun _ _ => SlotKf.good_init) h1, good_mapE (fun _ _ => SlotKf.good_init) h2,
    good_mapE (fun _ _ => SlotKf.good_init) h3⟩

theorem SlotTl.good_setDefaults {x : SlotTl F} (b : Bool) (h : SlotTl.Good x) : SlotTl.Good (x.setDefaults b) :=
  ⟨good_map (G := SlotKf.Good) (fun _ => SlotKf.good_setDefaults b) h.1, good_map (G := SlotKf.Good) (fun _ => SlotKf.good_setDefaults b) h.2.1,
    good_map (G := SlotKf.Good) (fun _ => SlotKf.good_setDefaults b) h.2.2⟩

theorem BoneTl.good_init {v : JVal F} {x : BoneTl F} (h : BoneTl.init v = .ok x) : BoneTl.Good x := by
  obtain ⟨d, _, h⟩ := bindOk h
  obtain ⟨_, _, h⟩ := bindOk h
  obtain ⟨a, h1, h⟩ := bindOk h
  obtain ⟨_, _, h⟩ := bindOk h
  obtain ⟨c, h2, h⟩ := bindOk h
  obtain ⟨_, _, h⟩ := bindOk h
  obtain ⟨t, h3, h⟩ := bindOk h
  obtain ⟨_, _, h⟩ := bindOk h
  obtain ⟨t, h4, h⟩ := bindOk h
  obtain ⟨_, _, h⟩ := bindOk h
  injection h with h
  subst h
  exact ⟨keysOf_init h1, keysOf_init h2, keysOf_init h3, keysOf_init h4⟩

theorem BoneTl.good_setDefaults {x : BoneTl F} (b : Bool) (h : BoneTl.Good x) : BoneTl.Good (x.setDefaults b) :=
  ⟨keysOf_setDefaults b h.1, keysOf_setDefaults b h.2.1, keysOf_setDefaults b h.2.2.1, keysOf_setDefaults b h.2.2.2⟩

theorem Skin.good_init {v : JVal F} {x : Skin F} (h : Skin.init v = .ok x) : Skin.Good x := by
  obtain ⟨d, _, h⟩ := bindOk h
  obtain ⟨_, _, h⟩ := bindOk h
  obtain ⟨_, _, h⟩ := bindOk h
  split at h
  · injection h with h; subst h; intro p hp; cases hp
  · obtain ⟨a, h1, h⟩ := bindOk h
    injection h with h
    subst h
    obtain ⟨_, _, h1⟩ := bindOk h1
    refine good_mapD (G := fun e => ∀ q ∈ e, Att.Good q.2) ?_ h1
    intro v e h
    obtain ⟨_, _, h⟩ := bindOk h
    exact good_mapD (fun _ _ => Att.good_init) h

theorem Skin.good_setDefaults {x : Skin F} (b : Bool) (h : Skin.Good x) : Skin.Good (x.setDefaults b) := by
  refine good_dmap (G := fun e : Dict (Att F) => ∀ q ∈ e, Att.Good q.2)
    (f := fun e => e.map (fun q => (q.1, q.2.setDefaults b))) ?_ h
  intro e he
  exact good_dmap (G := Att.Good) (f := (·.setDefaults b)) (fun _ => Att.good_setDefaults b) he

theorem Anim.good_init {v : JVal F} {x : Anim F} {b : Bool} (h : Anim.init v = .ok x) (hd : ∀ t ∈ x.drawOrder, DrawTl.Good b t) :
    Anim.Good b x := by
  obtain ⟨d, _, h⟩ := bindOk h
  obtain ⟨ik, h1, h⟩ := bindOk h
  obtain ⟨_, _, h⟩ := bindOk h
  obtain ⟨dr, h2, h⟩ := bindOk h
  obtain ⟨bo, h3, h⟩ := bindOk h
  obtain ⟨sl, h4, h⟩ := bindOk h
  obtain ⟨_, _, h⟩ := bindOk h
  obtain ⟨ev, h5, h⟩ := bindOk h
  obtain ⟨tr, h6, h⟩ := bindOk h
  obtain ⟨pa, h7, h⟩ := bindOk h
  obtain ⟨de, h8, h⟩ := bindOk h
  obtain ⟨_, _, h⟩ := bindOk h
  injection h with h
  subst h
  refine ⟨good_getDict (G := KeysOf ikTimelineCls) (fun _ _ => keysOf_listOf) h1, hd,
    good_getDict (fun _ _ => BoneTl.good_init) h3, good_getDict (fun _ _ => SlotTl.good_init) h4, keysOf_init h5,
    good_getDict (G := KeysOf transformTimelineCls) (fun _ _ => keysOf_listOf) h6, ?_, ?_⟩
  · obtain ⟨_, _, h7⟩ := bindOk h7
    refine good_mapD (G := fun e => ∀ q ∈ e, KeysOf pathTimelineCls q.2) ?_ h7
    intro v e h
    obtain ⟨_, _, h⟩ := bindOk h
    exact good_mapD (G := KeysOf pathTimelineCls) (fun _ _ => keysOf_listOf) h
  · obtain ⟨_, _, h8⟩ := bindOk h8
    refine good_mapD (G := fun e => ∀ q ∈ e, ∀ r ∈ q.2, KeysOf deformCls r.2) ?_ h8
    intro v e h
    obtain ⟨_, _, h⟩ := bindOk h
    refine good_mapD (G := fun e => ∀ q ∈ e, KeysOf deformCls q.2) ?_ h
    intro v e h
    obtain ⟨_, _, h⟩ := bindOk h
    exact good_mapD (G := KeysOf deformCls) (fun _ _ => keysOf_listOf) h

theorem DrawTl.good_setDefaults {x : DrawTl F} (b : Bool) (h : DrawTl.Good b x) : DrawTl.Good b (x.setDefaults b) := by
  rcases h with h | h
  · exact .inl h
  · right
    show ((drawCls (F := F)).setDefaults b [(s!!"time", x.time)]).val s!!"time" ≠ .null
    cases ht : x.time with
    | null => exact absurd ht h
    | _ => simp [Cls.setDefaults, Attrs.val, Dict.get?]

theorem Anim.good_setDefaults {x : Anim F} (b : Bool) (h : Anim.Good b x) : Anim.Good b (x.setDefaults b) := by
  refine ⟨?_, good_map (G := DrawTl.Good b) (fun _ => DrawTl.good_setDefaults b) h.drawOrder, good_dmap (G := BoneTl.Good) (fun _ => BoneTl.good_setDefaults b) h.bones,
    good_dmap (G := SlotTl.Good) (fun _ => SlotTl.good_setDefaults b) h.slots, keysOf_setDefaults b h.events, ?_, ?_, ?_⟩
  · exact good_dmap (G := KeysOf ikTimelineCls) (fun _ => keysOf_setDefaults b) h.ik
  · exact good_dmap (G := KeysOf transformTimelineCls) (fun _ => keysOf_setDefaults b) h.transform
  · refine good_dmap (G := fun e : Dict (List (Attrs F)) => ∀ q ∈ e, KeysOf pathTimelineCls q.2) ?_ h.path
    intro e he
    exact good_dmap (G := KeysOf pathTimelineCls) (fun _ => keysOf_setDefaults b) he
  · refine good_dmap (G := fun e : Dict (Dict (List (Attrs F))) => ∀ q ∈ e, ∀ r ∈ q.2, KeysOf deformCls r.2) ?_ h.deform
    intro e he
    refine good_dmap (G := fun e : Dict (List (Attrs F)) => ∀ q ∈ e, KeysOf deformCls q.2) ?_ he
    intro e he
    exact good_dmap (G := KeysOf deformCls) (fun _ => keysOf_setDefaults b) he

/-- no drawOrder keyframe has a null time (only relevant before 3.8) -/
def AnimData.TimesOk (b : Bool) (x : AnimData F) : Prop := ∀ p ∈ x.animations, ∀ t ∈ p.2.drawOrder, DrawTl.Good b t

theorem AnimData.good_init {d : Dict (JVal F)} {x : AnimData F} {b : Bool} (h : AnimData.init d = .ok x)
    (ht : AnimData.TimesOk b x) : AnimData.Good b x := by
  obtain ⟨_, _, h⟩ := bindOk h
  obtain ⟨_, _, h⟩ := bindOk h
  obtain ⟨bo, h1, h⟩ := bindOk h
  obtain ⟨_, _, h⟩ := bindOk h
  obtain ⟨_, _, h⟩ := bindOk h
  obtain ⟨sl, h2, h⟩ := bindOk h
  obtain ⟨_, _, h⟩ := bindOk h
  obtain ⟨_, _, h⟩ := bindOk h
  obtain ⟨sk, h3, h⟩ := bindOk h
  obtain ⟨ev, h4, h⟩ := bindOk h
  obtain ⟨_, _, h⟩ := bindOk h
  obtain ⟨ik, h5, h⟩ := bindOk h
  obtain ⟨_, _, h⟩ := bindOk h
  obtain ⟨tr, h6, h⟩ := bindOk h
  obtain ⟨_, _, h⟩ := bindOk h
  obtain ⟨pa, h7, h⟩ := bindOk h
  obtain ⟨an, h8, h⟩ := bindOk h
  obtain ⟨_, _, h⟩ := bindOk h
  injection h with h
  subst h
  refine ⟨good_mapE (fun _ _ => Bone.good_init) h1, good_mapE (fun _ _ => Skin.good_init) h3,
    good_getDict (G := fun a => Dict.keys a = (eventsCls (F := F)).attrs) (fun _ _ => Cls.keys_init) h4,
    keysOf_init h5, keysOf_init h6, keysOf_init h7, ?_⟩
  intro p hp
  unfold Anim.getDict at h8
  split at h8
  · injection h8 with h8; subst h8; cases hp
  · obtain ⟨_, _, h8⟩ := bindOk h8
    obtain ⟨v, _, hv⟩ := mapD_back h8 p hp
    exact Anim.good_init hv (ht p hp)

theorem AnimData.good_setDefaults {x : AnimData F} (b : Bool) (h : AnimData.Good b x) : AnimData.Good b (x.setDefaults b) :=
  ⟨good_map (G := Bone.Good) (fun _ => Bone.good_setDefaults b) h.bones, good_map (G := Skin.Good) (fun _ => Skin.good_setDefaults b) h.skins,
    good_dmap (G := fun a => Dict.keys a = (eventsCls (F := F)).attrs)
      (fun a ha => by rw [Cls.keys_setDefaults]; exact ha) h.events,
    keysOf_setDefaults b h.ik, keysOf_setDefaults b h.transform, keysOf_setDefaults b h.path,
    good_dmap (G := Anim.Good b) (fun _ => Anim.good_setDefaults b) h.animations⟩

theorem SpineDoc.load_ok {doc : JVal F} {s : SpineDoc F} (h : SpineDoc.load doc = .ok s) :
    ∃ d v a, doc = .dict d ∧ Dict.get? d s!!"skeleton" = some (.dict s.skeleton) ∧
      Dict.get? s.skeleton s!!"spine" = some (.str v) ∧ Version.mk? F v = .ok s.version ∧ AnimData.init d = .ok a ∧
      s.data = a.setDefaults s.version.is38 := by
  cases doc with
  | dict d =>
    obtain ⟨sk, h1, h⟩ := bindOk h
    cases sk with
    | dict sk =>
      obtain ⟨v, h2, h⟩ := bindOk h
      cases v with
      | str v =>
        obtain ⟨ver, h3, h⟩ := bindOk h
        obtain ⟨a, h4, h⟩ := bindOk h
        injection h with h
        subst h
        refine ⟨d, v, a, rfl, ?_, ?_, h3, h4, rfl⟩
        · unfold getItem at h1
          split at h1
          · cases h1
          · rename_i w hw; injection h1 with h1; rw [hw, h1]
        · unfold getItem at h2
          split at h2
          · cases h2
          · rename_i w hw; injection h2 with h2; rw [hw, h2]
      | null => cases h
      | bool b => cases h
      | int i => cases h
      | flt f => cases h
      | list l => cases h
      | dict d => cases h
    | null => cases h
    | bool b => cases h
    | int i => cases h
    | flt f => cases h
    | str s => cases h
    | list l => cases h
  | null => cases h
  | bool b => cases h
  | int i => cases h
  | flt f => cases h
  | str s => cases h
  | list l => cases h

end Spine
