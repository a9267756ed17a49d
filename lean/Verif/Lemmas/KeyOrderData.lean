import Verif.Lemmas.KeyOrder
/- The relation between two documents, class by class; constructors, defaults and `to_json` keep it. -/
namespace Spine
namespace KeyOrder
open JVal
set_option linter.unusedSectionVars false
variable {F : Type}

structure BoneR (x y : Bone F) : Prop where
  name : x.name = y.name
  parent : x.parent = y.parent
  attrs : ARel x.attrs y.attrs

structure SlotR (x y : Slot F) : Prop where
  name : x.name = y.name
  bone : x.bone = y.bone
  attachment : x.attachment = y.attachment
  color : x.color = y.color
  dark : Reord x.dark y.dark
  blend : Reord x.blend y.blend

structure AttR (x y : Att F) : Prop where
  kind : x.kind = y.kind
  attrs : ARel x.attrs y.attrs

structure SkinR (x y : Skin F) : Prop where
  name : x.name = y.name
  atts : DRel (DRel AttR) x.attachments y.attachments

structure KfR (x y : SlotKf F) : Prop where
  name : x.name = y.name
  attrs : ARel x.attrs y.attrs

structure SlotTlR (x y : SlotTl F) : Prop where
  attachment : All₂ KfR x.attachment y.attachment
  color : All₂ KfR x.color y.color
  twoColor : All₂ KfR x.twoColor y.twoColor

structure BoneTlR (x y : BoneTl F) : Prop where
  rotate : All₂ ARel x.rotate y.rotate
  translate : All₂ ARel x.translate y.translate
  scale : All₂ ARel x.scale y.scale
  shear : All₂ ARel x.shear y.shear

structure DrawR (x y : DrawTl F) : Prop where
  time : Reord x.time y.time
  offsets : x.offsets = y.offsets

structure AnimR (x y : Anim F) : Prop where
  ik : DRel (All₂ ARel) x.ik y.ik
  drawOrder : All₂ DrawR x.drawOrder y.drawOrder
  bones : DRel BoneTlR x.bones y.bones
  slots : DRel SlotTlR x.slots y.slots
  events : All₂ ARel x.events y.events
  transform : DRel (All₂ ARel) x.transform y.transform
  path : DRel (DRel (All₂ ARel)) x.path y.path
  deform : DRel (DRel (DRel (All₂ ARel))) x.deform y.deform

structure DataR (x y : AnimData F) : Prop where
  bones : All₂ BoneR x.bones y.bones
  slots : All₂ SlotR x.slots y.slots
  skins : All₂ SkinR x.skins y.skins
  events : DRel ARel x.events y.events
  ik : All₂ ARel x.ik y.ik
  transform : All₂ ARel x.transform y.transform
  path : All₂ ARel x.path y.path
  animations : DRel AnimR x.animations y.animations

structure DocR (x y : SpineDoc F) : Prop where
  skeleton : JD x.skeleton y.skeleton
  version : x.version = y.version
  data : DataR x.data y.data

section Rt
variable [PyRt F]

/-! ### symmetry -/

theorem BoneR.symm {x y : Bone F} (h : BoneR x y) : BoneR y x := ⟨h.name.symm, h.parent.symm, h.attrs.symm⟩
theorem SlotR.symm {x y : Slot F} (h : SlotR x y) : SlotR y x :=
  ⟨h.name.symm, h.bone.symm, h.attachment.symm, h.color.symm, reord_symm h.dark, reord_symm h.blend⟩
theorem AttR.symm {x y : Att F} (h : AttR x y) : AttR y x := ⟨h.kind.symm, h.attrs.symm⟩
theorem SkinR.symm {x y : Skin F} (h : SkinR x y) : SkinR y x := ⟨h.name.symm, h.atts.symm fun _ _ h => h.symm fun _ _ h => h.symm⟩
theorem KfR.symm {x y : SlotKf F} (h : KfR x y) : KfR y x := ⟨h.name.symm, h.attrs.symm⟩
theorem aall_symm {l m : List (Attrs F)} (h : All₂ ARel l m) : All₂ ARel m l := all₂_symm h fun _ _ h => h.symm
theorem SlotTlR.symm {x y : SlotTl F} (h : SlotTlR x y) : SlotTlR y x :=
  ⟨all₂_symm h.attachment fun _ _ h => h.symm, all₂_symm h.color fun _ _ h => h.symm, all₂_symm h.twoColor fun _ _ h => h.symm⟩
theorem BoneTlR.symm {x y : BoneTl F} (h : BoneTlR x y) : BoneTlR y x :=
  ⟨aall_symm h.rotate, aall_symm h.translate, aall_symm h.scale, aall_symm h.shear⟩
theorem DrawR.symm {x y : DrawTl F} (h : DrawR x y) : DrawR y x := ⟨reord_symm h.time, h.offsets.symm⟩
theorem AnimR.symm {x y : Anim F} (h : AnimR x y) : AnimR y x :=
  ⟨h.ik.symm fun _ _ => aall_symm, all₂_symm h.drawOrder fun _ _ h => h.symm, h.bones.symm fun _ _ h => h.symm, h.slots.symm fun _ _ h => h.symm,
    aall_symm h.events, h.transform.symm fun _ _ => aall_symm, h.path.symm fun _ _ h => h.symm fun _ _ => aall_symm,
    h.deform.symm fun _ _ h => h.symm fun _ _ h => h.symm fun _ _ => aall_symm⟩
theorem DataR.symm {x y : AnimData F} (h : DataR x y) : DataR y x :=
  ⟨all₂_symm h.bones fun _ _ h => h.symm, all₂_symm h.slots fun _ _ h => h.symm, all₂_symm h.skins fun _ _ h => h.symm,
    h.events.symm fun _ _ h => h.symm, aall_symm h.ik, aall_symm h.transform, aall_symm h.path, h.animations.symm fun _ _ h => h.symm⟩
theorem DocR.symm {x y : SpineDoc F} (h : DocR x y) : DocR y x := ⟨h.skeleton.symm fun _ _ => reord_symm, h.version.symm, h.data.symm⟩

/-! ### constructors -/

theorem arel_cons {k : Str} {v w : JVal F} {a b : Attrs F} (hk : k ∉ Dict.keys a) (hr : Reord v w) (h : ARel a b) :
    ARel ((k, v) :: a) ((k, w) :: b) :=
  ⟨by simpa [Dict.keys] using And.intro (by simpa [Dict.keys] using hk) h.nodup, .cons ⟨rfl, hr⟩ h.all⟩

theorem reord_optJ (o : Option Str) : Reord (optJ o : JVal F) (optJ o) := by cases o <;> constructor

theorem not_mem_without {a : Attrs F} {ks : List Str} {k : Str} (h : k ∈ ks) : k ∉ Dict.keys (a.without ks) := by
  simp only [Dict.keys, Attrs.without, List.mem_map, List.mem_filter, not_exists, not_and]
  rintro p ⟨_, hp⟩ rfl
  simp [h] at hp

theorem bone_fol {v w : JVal F} (h : Reord v w) : Fol BoneR (Bone.init v) (Bone.init w) := by
  unfold Bone.init
  refine (init_fol (by simp [leafClasses]) h).bind fun a b hab => (optStr_fol (hab.val _)).bind fun n n' hn => ?_
  subst hn
  cases n with
  | none => exact Fol.error
  | some n =>
    refine (optStr_fol (hab.val _)).bind fun p p' hp => ?_
    subst hp
    refine Fol.pure ⟨rfl, rfl, ?_⟩
    unfold Bone.attrs
    refine arel_cons ?_ (.str n) (arel_cons (not_mem_without (by simp)) (reord_optJ p) (hab.without _))
    simp only [Dict.keys, List.map_cons, List.mem_cons, not_or]
    exact ⟨by decide, not_mem_without (by simp)⟩

theorem slot_fol {v w : JVal F} (h : Reord v w) : Fol SlotR (Slot.init v) (Slot.init w) := by
  unfold Slot.init
  refine (init_fol (by simp [leafClasses]) h).bind fun a b hab => (optStr_fol (hab.val _)).bind fun n n' hn => ?_
  subst hn
  cases n with
  | none => exact Fol.error
  | some n =>
    refine (optStr_fol (hab.val _)).bind fun p p' hp => (optStr_fol (hab.val _)).bind fun q q' hq => (optStr_fol (hab.val _)).bind fun r r' hr => ?_
    subst hp hq hr
    exact Fol.pure ⟨rfl, rfl, rfl, rfl, hab.val _, hab.val _⟩

theorem kindOf_fol {d e : Dict (JVal F)} (h : JD d e) : Fol Eq (Att.kindOf d) (Att.kindOf e) := by
  unfold Att.kindOf
  rcases h.get s!!"type" with ⟨h1, h2⟩ | ⟨v, w, h1, h2, h3⟩
  · rw [h1, h2]; exact Fol.ok rfl
  · rw [h1, h2]
    cases h3 with
    | null => exact Fol.ok rfl
    | str s => exact fun r hr => ⟨r, hr, rfl⟩
    | _ => exact Fol.error

theorem typed_eq {a b : Attrs F} (h : ARel a b) : Att.typed a = Att.typed b := by
  have one : ∀ k, (match Dict.get? a k with
      | none => true
      | some .null => true
      | some (.str _) => true
      | some _ => false) = (match Dict.get? b k with
      | none => true
      | some .null => true
      | some (.str _) => true
      | some _ => false) := by
    intro k
    rcases h.get k with ⟨h1, h2⟩ | ⟨v, w, h1, h2, h3⟩
    · rw [h1, h2]
    · rw [h1, h2]; cases h3 <;> rfl
  unfold Att.typed
  congr 1
  funext k
  exact one k

theorem attCls_leaf (k : AttKind) : AttKind.cls k ∈ (leafClasses : List (Cls F)) := by cases k <;> simp [leafClasses, AttKind.cls]

theorem att_fol {v w : JVal F} (h : Reord v w) : Fol AttR (Att.init v) (Att.init w) := by
  cases h with
  | @dict d e h1 h2 h3 h4 =>
    unfold Att.init
    refine (kindOf_fol ⟨h1, h2, h3, h4⟩).bind fun k k' hk => ?_
    subst hk
    refine (init_fol (attCls_leaf k) (.dict h1 h2 h3 h4)).bind fun a b hab => ?_
    rw [typed_eq hab]
    split
    · exact Fol.pure ⟨rfl, hab⟩
    · exact Fol.error
  | _ => exact Fol.error

theorem skin_fol {v w : JVal F} (h : Reord v w) : Fol SkinR (Skin.init v) (Skin.init w) := by
  unfold Skin.init
  refine (orDict_fol h).bind fun d e hd => (check_fol hd _ _).bind fun _ _ _ => (optStr_fol (getD_reord hd _ .null)).bind fun n n' hn => ?_
  subst hn
  have key : ∀ {x y : JVal F}, Reord x y → Fol (fun a b : Dict (Dict (Att F)) => DRel (DRel AttR) a b) (Skin.parseAttachments x) (Skin.parseAttachments y) := by
    intro x y hxy
    unfold Skin.parseAttachments
    exact (level_fol hxy).bind fun a b hab => mapD_fol hab fun x y hxy => (level_fol hxy).bind fun a b hab => mapD_fol hab fun _ _ => att_fol
  have hr := getD_reord hd s!!"attachments" .null
  generalize (Dict.get? d s!!"attachments").getD .null = x at hr
  generalize (Dict.get? e s!!"attachments").getD .null = y at hr
  have k2 := key hr
  cases hr with
  | null => exact Fol.pure ⟨rfl, DRel.nil⟩
  | _ => exact k2.bind fun a b hab => Fol.pure ⟨rfl, hab⟩

theorem kf_fol {v w : JVal F} (h : Reord v w) : Fol KfR (SlotKf.init v) (SlotKf.init w) := by
  unfold SlotKf.init
  refine (init_fol (by simp [leafClasses]) h).bind fun a b hab => (optStr_fol (hab.val _)).bind fun n n' hn => ?_
  subst hn
  exact Fol.pure ⟨rfl, arel_cons (not_mem_without (by simp)) (reord_optJ n) (hab.without _)⟩

theorem bind_str {α β : Type} {x : Except Err α} {f : α → Except Err β} (h : ∀ r, x ≠ .ok r) (r : β) : (x >>= f) ≠ .ok r := by
  cases x with
  | error e => exact fun h => by cases h
  | ok a => exact absurd rfl (h a)

theorem bone_str {s : Str} (hs : s ≠ []) (r : Bone F) : Bone.init (.str s) ≠ .ok r := bind_str (init_str _ hs) r
theorem slot_str {s : Str} (hs : s ≠ []) (r : Slot F) : Slot.init (.str s) ≠ .ok r := bind_str (init_str _ hs) r
theorem kf_str {s : Str} (hs : s ≠ []) (r : SlotKf F) : SlotKf.init (.str s) ≠ .ok r := bind_str (init_str _ hs) r
theorem orDict_no {s : Str} (hs : s ≠ []) (r : Dict (JVal F)) : orDict (.str s : JVal F) ≠ .ok r := by rw [orDict_str hs]; exact fun h => by cases h
theorem skin_str {s : Str} (hs : s ≠ []) (r : Skin F) : Skin.init (.str s) ≠ .ok r := bind_str (orDict_no hs) r
theorem draw_str {s : Str} (hs : s ≠ []) (r : DrawTl F) : DrawTl.init (.str s) ≠ .ok r := bind_str (orDict_no hs) r
theorem offset_str {s : Str} (hs : s ≠ []) (r : Str × Int) : offsetInit (.str s : JVal F) ≠ .ok r := bind_str (init_str _ hs) r

theorem slotTl_fol {v w : JVal F} (h : Reord v w) : Fol SlotTlR (SlotTl.init v) (SlotTl.init w) := by
  unfold SlotTl.init
  have k := fun {d e : Dict (JVal F)} (hd : JD d e) (k : Str) => getIterMap_fol hd k (fun _ _ => kf_fol) (fun s hs => kf_str hs)
  exact (orDict_fol h).bind fun d e hd => Fol.bind2 (k hd _) fun _ _ h1 => Fol.bind2 (k hd _) fun _ _ h2 => Fol.bind2 (k hd _) fun _ _ h3 =>
    (check_fol hd _ _).bind fun _ _ _ => Fol.pure ⟨h1, h2, h3⟩

theorem leafIter_fol {c : Cls F} (hc : c ∈ (leafClasses : List (Cls F))) {d e : Dict (JVal F)} (hd : JD d e) (k : Str) :
    Fol (All₂ ARel) (getIter d k >>= mapE c.init) (getIter e k >>= mapE c.init) :=
  getIterMap_fol hd k (fun _ _ => init_fol hc) (fun _ hs => init_str c hs)

theorem boneTl_fol {v w : JVal F} (h : Reord v w) : Fol BoneTlR (BoneTl.init v) (BoneTl.init w) := by
  unfold BoneTl.init
  exact (orDict_fol h).bind fun d e hd => Fol.bind2 (leafIter_fol (by simp [leafClasses]) hd _) fun _ _ h1 =>
    Fol.bind2 (leafIter_fol (by simp [leafClasses]) hd _) fun _ _ h2 => Fol.bind2 (leafIter_fol (by simp [leafClasses]) hd _) fun _ _ h3 =>
    Fol.bind2 (leafIter_fol (by simp [leafClasses]) hd _) fun _ _ h4 => (check_fol hd _ _).bind fun _ _ _ => Fol.pure ⟨h1, h2, h3, h4⟩

theorem offset_fol {v w : JVal F} (h : Reord v w) : Fol Eq (offsetInit v) (offsetInit w) := by
  unfold offsetInit
  refine (init_fol (by simp [leafClasses]) h).bind fun a b hab => (optStr_fol (hab.val _)).bind fun n n' hn => ?_
  subst hn
  have hr := hab.val s!!"offset"
  generalize a.val s!!"offset" = x at hr
  generalize b.val s!!"offset" = y at hr
  cases hr with
  | int i => exact Fol.pure rfl
  | _ => exact Fol.error

theorem draw_fol {v w : JVal F} (h : Reord v w) : Fol DrawR (DrawTl.init v) (DrawTl.init w) := by
  unfold DrawTl.init
  exact (orDict_fol h).bind fun d e hd => Fol.bind2 (getIterMap_fol hd _ (fun _ _ => offset_fol) (fun _ hs => offset_str hs)) fun a b hab =>
    (check_fol hd _ _).bind fun _ _ _ => Fol.pure ⟨getD_reord hd _ (.int 0), hab.eq⟩

theorem listOf_fol {c : Cls F} (hc : c ∈ (leafClasses : List (Cls F))) {v w : JVal F} (h : Reord v w) :
    Fol (All₂ ARel) (Anim.listOf c v) (Anim.listOf c w) :=
  iterMap_fol h (fun _ _ => init_fol hc) (fun _ hs => init_str c hs)

theorem parsePath_fol {v w : JVal F} (h : Reord v w) : Fol (DRel (DRel (All₂ ARel))) (Anim.parsePath v) (Anim.parsePath w) := by
  unfold Anim.parsePath
  exact (itemsOf_fol h).bind fun _ _ hab => mapD_fol hab fun _ _ h => (itemsOf_fol h).bind fun _ _ hab => mapD_fol hab fun _ _ =>
    listOf_fol (by simp [leafClasses])

theorem parseDeform_fol {v w : JVal F} (h : Reord v w) : Fol (DRel (DRel (DRel (All₂ ARel)))) (Anim.parseDeform v) (Anim.parseDeform w) := by
  unfold Anim.parseDeform
  exact (itemsOf_fol h).bind fun _ _ hab => mapD_fol hab fun _ _ h => (itemsOf_fol h).bind fun _ _ hab => mapD_fol hab fun _ _ h =>
    (itemsOf_fol h).bind fun _ _ hab => mapD_fol hab fun _ _ => listOf_fol (by simp [leafClasses])

theorem anim_fol {v w : JVal F} (h : Reord v w) : Fol AnimR (Anim.init v) (Anim.init w) := by
  unfold Anim.init
  have e0 : Reord (.dict [] : JVal F) (.dict []) := reord_dict.2 DRel.nil
  exact (orDict_fol h).bind fun d e hd =>
    (getDict_fol hd _ fun _ _ => listOf_fol (by simp [leafClasses])).bind fun _ _ h1 =>
    Fol.bind2 (getIterMap_fol hd _ (fun _ _ => draw_fol) (fun _ hs => draw_str hs)) fun _ _ h2 =>
    (getDict_fol hd _ fun _ _ => boneTl_fol).bind fun _ _ h3 =>
    (getDict_fol hd _ fun _ _ => slotTl_fol).bind fun _ _ h4 =>
    Fol.bind2 (leafIter_fol (by simp [leafClasses]) hd _) fun _ _ h5 =>
    (getDict_fol hd _ fun _ _ => listOf_fol (by simp [leafClasses])).bind fun _ _ h6 =>
    (parsePath_fol (getD_reord hd _ e0)).bind fun _ _ h7 =>
    (parseDeform_fol (getD_reord hd _ e0)).bind fun _ _ h8 =>
    (check_fol hd _ _).bind fun _ _ _ => Fol.pure ⟨h1, h2, h3, h4, h5, h6, h7, h8⟩

theorem itemIter_fol {β β' : Type} {S : β → β' → Prop} {f : JVal F → Except Err β} {g : JVal F → Except Err β'} {d e : Dict (JVal F)}
    (h : JD d e) (k : Str) (hf : ∀ x y, Reord x y → Fol S (f x) (g y)) (hs : ∀ s : Str, s ≠ [] → ∀ r, f (.str s) ≠ .ok r) :
    Fol (All₂ S) (getItem d k >>= fun v => iter v >>= mapE f) (getItem e k >>= fun v => iter v >>= mapE g) :=
  (getItem_fol h k).bind fun _ _ hr => iterMap_fol hr hf hs

theorem Fol.bind3 {α α' β β' γ γ' δ δ' : Type} {S : γ → γ' → Prop} {T : δ → δ' → Prop} {x : Except Err α} {y : Except Err α'} {f : α → Except Err β} {g : α' → Except Err β'}
    {f2 : β → Except Err γ} {g2 : β' → Except Err γ'} {k : γ → Except Err δ} {k' : γ' → Except Err δ'}
    (h : Fol S (x >>= fun a => f a >>= f2) (y >>= fun a => g a >>= g2)) (hk : ∀ a b, S a b → Fol T (k a) (k' b)) :
    Fol T (x >>= fun a => f a >>= fun b => f2 b >>= k) (y >>= fun a => g a >>= fun b => g2 b >>= k') := by
  have := Fol.bind2 h hk
  have e1 : (fun a => (f a >>= f2) >>= k) = (fun a => f a >>= fun b => f2 b >>= k) := by funext a; cases f a <;> rfl
  have e2 : (fun a => (g a >>= g2) >>= k') = (fun a => g a >>= fun b => g2 b >>= k') := by funext a; cases g a <;> rfl
  rw [e1, e2] at this
  exact this

theorem data_fol {d e : Dict (JVal F)} (h : JD d e) : Fol DataR (AnimData.init d) (AnimData.init e) := by
  unfold AnimData.init
  have hd := h.del s!!"skeleton"
  exact Fol.bind3 (itemIter_fol hd _ (fun _ _ => bone_fol) (fun _ hs => bone_str hs)) fun _ _ h1 =>
    Fol.bind3 (itemIter_fol hd _ (fun _ _ => slot_fol) (fun _ hs => slot_str hs)) fun _ _ h2 =>
    Fol.bind3 (itemIter_fol hd _ (fun _ _ => skin_fol) (fun _ hs => skin_str hs)) fun _ _ h3 =>
    (getDict_fol hd _ fun _ _ => init_fol (by simp [leafClasses])).bind fun _ _ h4 =>
    Fol.bind2 (leafIter_fol (by simp [leafClasses]) hd _) fun _ _ h5 =>
    Fol.bind2 (leafIter_fol (by simp [leafClasses]) hd _) fun _ _ h6 =>
    Fol.bind2 (leafIter_fol (by simp [leafClasses]) hd _) fun _ _ h7 =>
    (getDict_fol hd _ fun _ _ => anim_fol).bind fun _ _ h8 =>
    (check_fol hd _ _).bind fun _ _ _ => Fol.pure ⟨h1, h2, h3, h4, h5, h6, h7, h8⟩

/-! ### defaults -/

theorem leafDefaults {c : Cls F} (hc : c ∈ (leafClasses : List (Cls F))) (b : Bool) {x y : Attrs F} (h : ARel x y) :
    ARel (c.setDefaults b x) (c.setDefaults b y) := setDefaults_rel (leaf_plain c hc) b h

theorem keys_setDefaults (c : Cls F) (b : Bool) (x : Attrs F) : Dict.keys (c.setDefaults b x) = Dict.keys x := by
  unfold Cls.setDefaults Dict.keys
  rw [List.map_map]
  refine List.map_congr_left ?_
  intro p _
  simp only [Function.comp]
  split <;> rfl

theorem arel_tail {p q : Str × JVal F} {a b : Attrs F} (h : ARel (p :: a) (q :: b)) : ARel a b := by
  refine ⟨?_, by cases h.all; assumption⟩
  have := h.nodup
  simp only [Dict.keys, List.map_cons, List.nodup_cons] at this
  exact this.2

theorem BoneR.rest {x y : Bone F} (h : BoneR x y) : ARel x.rest y.rest := arel_tail (arel_tail h.attrs)
theorem KfR.rest {x y : SlotKf F} (h : KfR x y) : ARel x.rest y.rest := arel_tail h.attrs

theorem BoneR.of_rest {x y x' y' : Bone F} (h : BoneR x y) (h1 : x'.name = x.name) (h2 : y'.name = y.name) (h3 : x'.parent = x.parent)
    (h4 : y'.parent = y.parent) (hk : ∀ k, k ∈ Dict.keys x'.rest → k ∈ Dict.keys x.rest) (hr : ARel x'.rest y'.rest) : BoneR x' y' := by
  refine ⟨by rw [h1, h2, h.name], by rw [h3, h4, h.parent], ?_⟩
  unfold Bone.attrs
  rw [h1, h2, h3, h4, ← h.name, ← h.parent]
  have hn := h.attrs.nodup
  simp only [Bone.attrs, Dict.keys, List.map_cons, List.nodup_cons, List.mem_cons, not_or] at hn
  refine arel_cons ?_ (.str _) (arel_cons (fun h => hn.2.1 (hk _ h)) (reord_optJ _) hr)
  simp only [Dict.keys, List.map_cons, List.mem_cons, not_or]
  exact ⟨hn.1.1, fun h => hn.1.2 (hk _ h)⟩

theorem boneDefaults (b : Bool) {x y : Bone F} (h : BoneR x y) : BoneR (x.setDefaults b) (y.setDefaults b) :=
  h.of_rest rfl rfl rfl rfl (fun k hk => by simpa [Bone.setDefaults, keys_setDefaults] using hk) (leafDefaults (by simp [leafClasses]) b h.rest)

theorem attDefaults (b : Bool) {x y : Att F} (h : AttR x y) : AttR (x.setDefaults b) (y.setDefaults b) := by
  refine ⟨h.kind, ?_⟩
  unfold Att.setDefaults
  rw [h.kind]
  exact leafDefaults (attCls_leaf _) b h.attrs

theorem skinDefaults (b : Bool) {x y : Skin F} (h : SkinR x y) : SkinR (x.setDefaults b) (y.setDefaults b) :=
  ⟨h.name, h.atts.dmap fun _ _ h => h.dmap fun _ _ => attDefaults b⟩

theorem kfDefaults (b : Bool) {x y : SlotKf F} (h : KfR x y) : KfR (x.setDefaults b) (y.setDefaults b) := by
  refine ⟨h.name, ?_⟩
  have hn := h.attrs.nodup
  simp only [SlotKf.attrs, Dict.keys, List.map_cons, List.nodup_cons] at hn
  unfold SlotKf.attrs SlotKf.setDefaults
  simp only [← h.name]
  exact arel_cons (by rw [keys_setDefaults]; exact hn.1) (reord_optJ _) (leafDefaults (by simp [leafClasses]) b h.rest)

theorem slotTlDefaults (b : Bool) {x y : SlotTl F} (h : SlotTlR x y) : SlotTlR (x.setDefaults b) (y.setDefaults b) :=
  ⟨all₂_map h.attachment fun _ _ => kfDefaults b, all₂_map h.color fun _ _ => kfDefaults b, all₂_map h.twoColor fun _ _ => kfDefaults b⟩

theorem listDefaults {c : Cls F} (hc : c ∈ (leafClasses : List (Cls F))) (b : Bool) {x y : List (Attrs F)} (h : All₂ ARel x y) :
    All₂ ARel (x.map (c.setDefaults b)) (y.map (c.setDefaults b)) := all₂_map h fun _ _ => leafDefaults hc b

theorem boneTlDefaults (b : Bool) {x y : BoneTl F} (h : BoneTlR x y) : BoneTlR (x.setDefaults b) (y.setDefaults b) :=
  ⟨listDefaults (by simp [leafClasses]) b h.rotate, listDefaults (by simp [leafClasses]) b h.translate,
    listDefaults (by simp [leafClasses]) b h.scale, listDefaults (by simp [leafClasses]) b h.shear⟩

theorem drawCls_plain : Plain (drawCls (F := F)) := by
  intro b k dv hg
  have e0 : Reord (.list [] : JVal F) (.list []) := reord_list.2 .nil
  refine Cls.get?_imp_all (P := fun v => Reord v v) ?_ hg
  cases b <;> simp [Cls.defaultsFor, drawCls, Reord.int, e0]

theorem drawDefaults (b : Bool) {x y : DrawTl F} (h : DrawR x y) : DrawR (x.setDefaults b) (y.setDefaults b) := by
  refine ⟨?_, h.offsets⟩
  exact (setDefaults_rel drawCls_plain b (x := [(s!!"time", x.time)]) (y := [(s!!"time", y.time)]) ⟨by simp [Dict.keys], .cons ⟨rfl, h.time⟩ .nil⟩).val _

theorem animDefaults (b : Bool) {x y : Anim F} (h : AnimR x y) : AnimR (x.setDefaults b) (y.setDefaults b) :=
  ⟨h.ik.dmap fun _ _ => listDefaults (by simp [leafClasses]) b, all₂_map h.drawOrder fun _ _ => drawDefaults b,
    h.bones.dmap fun _ _ => boneTlDefaults b, h.slots.dmap fun _ _ => slotTlDefaults b, listDefaults (by simp [leafClasses]) b h.events,
    h.transform.dmap fun _ _ => listDefaults (by simp [leafClasses]) b,
    h.path.dmap fun _ _ h => h.dmap fun _ _ => listDefaults (by simp [leafClasses]) b,
    h.deform.dmap fun _ _ h => h.dmap fun _ _ h => h.dmap fun _ _ => listDefaults (by simp [leafClasses]) b⟩

theorem dataDefaults (b : Bool) {x y : AnimData F} (h : DataR x y) : DataR (x.setDefaults b) (y.setDefaults b) :=
  ⟨all₂_map h.bones fun _ _ => boneDefaults b, h.slots, all₂_map h.skins fun _ _ => skinDefaults b,
    h.events.dmap fun _ _ => leafDefaults (by simp [leafClasses]) b, listDefaults (by simp [leafClasses]) b h.ik,
    listDefaults (by simp [leafClasses]) b h.transform, listDefaults (by simp [leafClasses]) b h.path, h.animations.dmap fun _ _ => animDefaults b⟩

theorem doc_fol {v w : JVal F} (h : Reord v w) : Fol DocR (SpineDoc.load v) (SpineDoc.load w) := by
  cases h with
  | @dict d e h1 h2 h3 h4 =>
    have hd : JD d e := ⟨h1, h2, h3, h4⟩
    unfold SpineDoc.load
    refine (getItem_fol hd _).bind fun x y hxy => ?_
    cases hxy with
    | @dict sk sk' g1 g2 g3 g4 =>
      have hs : JD sk sk' := ⟨g1, g2, g3, g4⟩
      refine (getItem_fol hs _).bind fun x y hxy => ?_
      cases hxy with
      | str s =>
        refine Fol.bind (R := Eq) (fun r hr => ⟨r, hr, rfl⟩) fun ver ver' he => ?_
        subst he
        exact (data_fol hd).bind fun a b hab => Fol.pure ⟨hs, rfl, dataDefaults _ hab⟩
      | _ => exact Fol.error
    | _ => exact Fol.error
  | _ => exact Fol.error

/-! ### `to_json` -/

theorem dmap_reord {α α' : Type} {R : α → α' → Prop} {d : Dict α} {e : Dict α'} (h : DRel R d e) {f : α → JVal F} {g : α' → JVal F}
    (hf : ∀ v w, R v w → Reord (f v) (g w)) : Reord (.dict (dmap f d)) (.dict (dmap g e)) := reord_dict.2 (h.dmap hf)

theorem map_reord {α α' : Type} {R : α → α' → Prop} {d : List α} {e : List α'} (h : All₂ R d e) {f : α → JVal F} {g : α' → JVal F}
    (hf : ∀ v w, R v w → Reord (f v) (g w)) : Reord (.list (d.map f)) (.list (e.map g)) := reord_list.2 (all₂_map h hf)

/-- two lists of attributes written one after the other -/
structure Part (ks : List Str) (a b : Attrs F) : Prop where
  rel : ARel a b
  keys : ∀ k ∈ Dict.keys a, k ∈ ks

theorem Part.append {ks ks' : List Str} {a b a' b' : Attrs F} (h : Part ks a b) (h' : Part ks' a' b') (hd : ∀ k ∈ ks, k ∉ ks') :
    Part (ks ++ ks') (a ++ a') (b ++ b') := by
  refine ⟨⟨?_, ?_⟩, ?_⟩
  · simp only [Dict.keys, List.map_append]
    refine List.nodup_append.2 ⟨h.rel.nodup, h'.rel.nodup, ?_⟩
    intro x hx y hy e
    subst e
    exact hd x (h.keys x hx) (h'.keys x hy)
  · have := h.rel.all
    clear h
    induction this with
    | nil => exact h'.rel.all
    | cons hr _ ih => exact .cons hr ih
  · intro k hk
    simp only [Dict.keys, List.map_append, List.mem_append] at hk
    rcases hk with hk | hk
    · exact List.mem_append.2 (.inl (h.keys k hk))
    · exact List.mem_append.2 (.inr (h'.keys k hk))

theorem Part.one (k : Str) {v w : JVal F} (h : Reord v w) : Part [k] [(k, v)] [(k, w)] :=
  ⟨⟨by simp [Dict.keys], .cons ⟨rfl, h⟩ .nil⟩, by simp [Dict.keys]⟩
theorem Part.none (k : Str) : Part [k] ([] : Attrs F) [] := ⟨⟨by simp [Dict.keys], .nil⟩, by simp [Dict.keys]⟩

theorem Part.jl {α α' : Type} {R : α → α' → Prop} {d : List α} {e : List α'} (h : All₂ R d e) (k : Str) {f : α → JVal F} {g : α' → JVal F}
    (hf : ∀ v w, R v w → Reord (f v) (g w)) : Part [k] (jl k f d) (jl k g e) := by
  unfold Spine.jl
  rw [← all₂_isEmpty h]
  split
  · exact .none k
  · exact .one k (map_reord h hf)

theorem Part.jd {α α' : Type} {R : α → α' → Prop} {d : Dict α} {e : Dict α'} (h : DRel R d e) (k : Str) {f : α → JVal F} {g : α' → JVal F}
    (hf : ∀ v w, R v w → Reord (f v) (g w)) : Part [k] (jd k f d) (jd k g e) := by
  unfold Spine.jd
  rw [← h.isEmpty]
  split
  · exact .none k
  · exact .one k (dmap_reord h hf)

theorem boneJson (b : Bool) {x y : Bone F} (h : BoneR x y) : Reord (x.toJson b) (y.toJson b) := toJson_rel _ b h.attrs

theorem SlotR.attrs {x y : Slot F} (h : SlotR x y) : ARel x.attrs y.attrs := by
  refine ⟨by simp [Slot.attrs, Dict.keys], ?_⟩
  unfold Slot.attrs
  rw [h.name, h.bone, h.attachment, h.color]
  exact .cons ⟨rfl, .str _⟩ (.cons ⟨rfl, reord_optJ _⟩ (.cons ⟨rfl, reord_optJ _⟩ (.cons ⟨rfl, reord_optJ _⟩ (.cons ⟨rfl, h.dark⟩ (.cons ⟨rfl, h.blend⟩ .nil)))))

theorem slotJson (b : Bool) {x y : Slot F} (h : SlotR x y) : Reord (x.toJson b) (y.toJson b) := toJson_rel _ b h.attrs

theorem attJson (b : Bool) {x y : Att F} (h : AttR x y) : Reord (x.toJson b) (y.toJson b) := by
  unfold Att.toJson
  rw [h.kind]
  exact toJson_rel _ b h.attrs

theorem skinJson (b : Bool) {x y : Skin F} (h : SkinR x y) : Reord (x.toJson b) (y.toJson b) := by
  unfold Skin.toJson
  rw [h.name]
  refine reord_dict.2 (Part.append (ks := [s!!"name"]) (ks' := [s!!"attachments"]) ?_ ?_ (by decide)).rel.toD
  · split
    · exact .none _
    · exact .one _ (.str _)
  · by_cases he : x.attachments = []
    · rw [if_pos he, if_pos (h.atts.nil_iff.1 he)]; exact .none _
    · rw [if_neg he, if_neg (fun h' => he (h.atts.nil_iff.2 h'))]
      exact .one _ (dmap_reord h.atts fun _ _ h => dmap_reord h fun _ _ => attJson b)

theorem kfJson (b : Bool) {x y : SlotKf F} (h : KfR x y) : Reord (x.toJson b) (y.toJson b) := toJson_rel _ b h.attrs

theorem slotTlJson (b : Bool) {x y : SlotTl F} (h : SlotTlR x y) : Reord (x.toJson b) (y.toJson b) :=
  reord_dict.2 (((Part.jl h.attachment _ fun _ _ => kfJson b).append (Part.jl h.color _ fun _ _ => kfJson b) (by decide)).append
    (Part.jl h.twoColor _ fun _ _ => kfJson b) (by decide)).rel.toD

theorem boneTlJson (b : Bool) {x y : BoneTl F} (h : BoneTlR x y) : Reord (x.toJson b) (y.toJson b) :=
  reord_dict.2 ((((Part.jl h.rotate _ fun _ _ => toJson_rel _ b).append (Part.jl h.translate _ fun _ _ => toJson_rel _ b) (by decide)).append
    (Part.jl h.scale _ fun _ _ => toJson_rel _ b) (by decide)).append (Part.jl h.shear _ fun _ _ => toJson_rel _ b) (by decide)).rel.toD

theorem offsetJson (b : Bool) (o : Str × Int) : Reord (offsetToJson b o : JVal F) (offsetToJson b o) :=
  toJson_rel _ b ⟨by simp [Dict.keys], .cons ⟨rfl, .str _⟩ (.cons ⟨rfl, .int _⟩ .nil)⟩

theorem all₂_refl {α : Type} {R : α → α → Prop} (h : ∀ x, R x x) : ∀ l : List α, All₂ R l l
  | [] => .nil
  | x :: l => .cons (h x) (all₂_refl h l)

theorem drawJson (b : Bool) {x y : DrawTl F} (h : DrawR x y) : Reord (x.toJson b) (y.toJson b) := by
  unfold DrawTl.toJson
  rw [emits_eq _ b _ h.time, h.offsets]
  refine reord_dict.2 (Part.append (ks := [s!!"time"]) ?_ (Part.one _ (reord_list.2 ?_)) (by decide)).rel.toD
  · split
    · exact .one _ h.time
    · exact .none _
  · exact all₂_map (all₂_refl (R := Eq) (fun _ => rfl) y.offsets) fun a b' e => by subst e; exact offsetJson b a

theorem jlist_reord (c : Cls F) (b : Bool) {x y : List (Attrs F)} (h : All₂ ARel x y) : Reord (Anim.jlist c b x) (Anim.jlist c b y) :=
  map_reord h fun _ _ => toJson_rel c b
theorem jdict_reord (c : Cls F) (b : Bool) {x y : Dict (List (Attrs F))} (h : DRel (All₂ ARel) x y) : Reord (Anim.jdict c b x) (Anim.jdict c b y) :=
  dmap_reord h fun _ _ => jlist_reord c b

theorem animJson (b : Bool) {x y : Anim F} (h : AnimR x y) : Reord (x.toJson b) (y.toJson b) :=
  reord_dict.2 (((((((((Part.jd h.ik _ fun _ _ => jlist_reord _ b).append (Part.jl h.drawOrder _ fun _ _ => drawJson b) (by decide)).append
    (Part.jd h.bones _ fun _ _ => boneTlJson b) (by decide)).append (Part.jd h.slots _ fun _ _ => slotTlJson b) (by decide)).append
    (Part.jl h.events _ fun _ _ => toJson_rel _ b) (by decide)).append (Part.jd h.transform _ fun _ _ => jlist_reord _ b) (by decide)).append
    (Part.jd h.path _ fun _ _ => jdict_reord _ b) (by decide)).append (Part.jd h.deform _ fun _ _ h => dmap_reord h fun _ _ => jdict_reord _ b) (by decide)).rel.toD)

theorem dataJson (b : Bool) {x y : AnimData F} (h : DataR x y) : ARel (x.toJson b) (y.toJson b) :=
  ((((((((Part.jl h.bones _ fun _ _ => boneJson b).append (Part.jl h.slots _ fun _ _ => slotJson b) (by decide)).append
    (Part.one _ (map_reord h.skins fun _ _ => skinJson b)) (by decide)).append (Part.jd h.events _ fun _ _ => toJson_rel _ b) (by decide)).append
    (Part.jl h.ik _ fun _ _ => toJson_rel _ b) (by decide)).append (Part.jl h.transform _ fun _ _ => toJson_rel _ b) (by decide)).append
    (Part.jl h.path _ fun _ _ => toJson_rel _ b) (by decide)).append (Part.jd h.animations _ fun _ _ => animJson b) (by decide)).rel

theorem docJson {x y : SpineDoc F} (h : DocR x y) : Reord x.toJson y.toJson := by
  unfold SpineDoc.toJson
  rw [h.version]
  exact reord_dict.2 ((dataJson _ h.data).set _ (reord_dict.2 h.skeleton)).toD

end Rt
end KeyOrder
end Spine
