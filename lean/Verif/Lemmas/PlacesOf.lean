import Verif.Lemmas.Places
/- The constructors of the document, seen from the places of its objects. -/
set_option linter.unusedSectionVars false
set_option linter.unusedSimpArgs false
namespace Spine
open JVal Places
variable {F : Type} [PyRt F]
variable {α β γ : Type}
namespace Places

/-! ### Sequences -/

theorem outcome_bind {x : Except Err α} {f : α → Except Err β} {r : Except Err Unit} (h : ∀ a, outcomeOf (f a) = r) :
    outcomeOf (x.bind f) = (outcomeOf x).bind (fun _ => r) := by
  cases x with
  | error e => rfl
  | ok a => exact h a

theorem outcome_bind2 {x : Except Err α} {g : α → Except Err β} {f : β → Except Err γ} {r : Except Err Unit}
    (h : ∀ b, outcomeOf (f b) = r) : outcomeOf (x.bind (fun a => (g a).bind f)) = (outcomeOf (x.bind g)).bind (fun _ => r) := by
  cases x with
  | error e => rfl
  | ok a => exact outcome_bind (x := g a) h

theorem runParts_cons (d : Dict (JVal F)) (k : Str) (s : Option (JVal F) → Except Err Unit) (l : Parts F) (r : Unit → Except Err Unit) :
    (runParts d ((k, s) :: l)).bind r = (s (Dict.get? d k)).bind (fun _ => (runParts d l).bind r) := by
  simp only [runParts]
  cases s (Dict.get? d k) <;> rfl

theorem runParts_nil (d : Dict (JVal F)) (r : Unit → Except Err Unit) : (runParts d []).bind r = r () := rfl

theorem runParts_nil' (d : Dict (JVal F)) : runParts d [] = .ok () := rfl

/-- `[f(x) for x in values.get(k, [])]` -/
def iterPart (f : JVal F → Except Err α) : Option (JVal F) → Except Err Unit
  | none => .ok ()
  | some v => outcomeOf ((iter v).bind (mapE f))

/-- `[f(x) for x in values[k]]` -/
def needPart (f : JVal F → Except Err α) : Option (JVal F) → Except Err Unit
  | none => .error .key
  | some v => outcomeOf ((iter v).bind (mapE f))

/-- `{key: f(values[k][key]) for key in values.get(k, {})}` -/
def dictPart (f : JVal F → Except Err α) : Option (JVal F) → Except Err Unit
  | none => .ok ()
  | some v => outcomeOf ((dictItems v).bind (mapD f))

/-- `f(values.get(k, {}))` -/
def itemPart (f : JVal F → Except Err α) (o : Option (JVal F)) : Except Err Unit := outcomeOf (f (o.getD (.dict [])))

theorem getIter_part (d : Dict (JVal F)) (k : Str) (f : JVal F → Except Err α) :
    outcomeOf ((getIter d k).bind (mapE f)) = iterPart f (Dict.get? d k) := by
  unfold getIter
  cases Dict.get? d k <;> rfl

theorem getItem_part (d : Dict (JVal F)) (k : Str) (f : JVal F → Except Err α) :
    outcomeOf ((getItem d k).bind (fun v => (iter v).bind (mapE f))) = needPart f (Dict.get? d k) := by
  unfold getItem
  cases Dict.get? d k <;> rfl

theorem getDict_part (d : Dict (JVal F)) (k : Str) (f : JVal F → Except Err α) :
    outcomeOf (Anim.getDict d k f) = dictPart f (Dict.get? d k) := by
  unfold Anim.getDict
  cases Dict.get? d k <;> rfl

theorem orDict_dict (d : Dict (JVal F)) : orDict (.dict d) = .ok d := by
  unfold orDict
  cases d <;> simp [truthy]

theorem outcome_check {known req : List Str} {d : Dict (JVal F)} (a : α) :
    outcomeOf ((Cls.check known req d).bind (fun _ => Except.ok a)) = (Cls.check known req d).bind (fun _ => .ok ()) := by
  cases Cls.check known req d <;> rfl

/-! ### What a constructor checks -/

/-- the keys of an object are checked after the attributes `pre` -/
structure Checks (f : JVal F → Except Err α) (pre : Parts F) (known req : List Str) : Prop where
  ok : ∀ {d : Dict (JVal F)} {a : α}, f (.dict d) = .ok a →
    runParts d pre = .ok () ∧ (∀ k ∈ Dict.keys d, k ∈ known) ∧ ∀ k ∈ req, k ∈ Dict.keys d
  bad : ∀ {d : Dict (JVal F)} {e : Err}, runParts d pre = .ok () → Cls.check known req d = .error e → f (.dict d) = .error e

theorem RunsAs.checks {f : JVal F → Except Err α} {pre post : Parts F} {known req : List Str} (h : RunsAs f pre known req post) :
    Checks f pre known req where
  ok := by intro d a ha; have := h.ok ha; exact ⟨this.1, this.2.1⟩
  bad := by
    intro d e h1 h2
    rw [← outcomeOf_error, h, h1, Except.bind, h2]; rfl

theorem Checks.leaf (c : Cls F) : Checks c.init [] c.attrs c.required where
  ok := by
    intro d a h
    unfold Cls.init at h
    rw [Cls.values_dict] at h
    obtain ⟨_, h0, h⟩ := bindOk h
    injection h0 with h0; subst h0
    obtain ⟨_, h1, _⟩ := bindOk h
    exact ⟨rfl, Cls.check_iff.1 h1⟩
  bad := by
    intro d e _ h
    unfold Cls.init
    rw [Cls.values_dict]
    simp only [bind, Except.bind, h]

theorem Checks.bind {f : JVal F → Except Err α} {pre : Parts F} {known req : List Str} (h : Checks f pre known req)
    (g : α → Except Err β) : Checks (fun v => (f v).bind g) pre known req where
  ok := by intro d a ha; obtain ⟨b, h1, _⟩ := bindOk ha; exact h.ok h1
  bad := by intro d e h1 h2; simp only [h.bad h1 h2, Except.bind]

theorem Checks.insert {f : JVal F → Except Err α} {pre : Parts F} {known req : List Str} (h : Checks f pre known req)
    (hp : ∀ p ∈ pre, p.1 ∈ known) {d1 d2 : Dict (JVal F)} {a : α} (ha : f (.dict (d1 ++ d2)) = .ok a) {k : Str} (hk : k ∉ known)
    (v : JVal F) : f (.dict (d1 ++ (k, v) :: d2)) = .error (.unsupportedAttrs [k]) := by
  obtain ⟨h2, hc1, hc2⟩ := h.ok ha
  refine h.bad ?_ (check_insert hc1 hk v)
  rw [← h2]
  exact runParts_congr (fun p hp' => get?_ins_ne _ (fun e : p.1 = k => hk (e ▸ hp p hp')))

theorem Checks.delete {f : JVal F → Except Err α} {known req : List Str} (h : Checks f [] known req)
    (hn : req.Nodup) {d1 d2 : Dict (JVal F)} {k : Str} {v : JVal F} {a : α} (ha : f (.dict (d1 ++ (k, v) :: d2)) = .ok a) (hk : k ∈ req)
    (h1 : k ∉ Dict.keys d1) (h2 : k ∉ Dict.keys d2) : f (.dict (d1 ++ d2)) = .error (.missingRequired [k]) := by
  obtain ⟨_, hc1, hc2⟩ := h.ok ha
  exact h.bad rfl (check_delete hn hc1 hc2 hk h1 h2)

/-! ### The constructors -/

theorem slotTl_as : RunsAs (F := F) SlotTl.init
    [(s!!"attachment", iterPart SlotKf.init), (s!!"color", iterPart SlotKf.init), (s!!"twoColor", iterPart SlotKf.init)]
    [s!!"attachment", s!!"color", s!!"twoColor"] [] [] := by
  intro d
  show outcomeOf ((orDict (.dict d)).bind _) = _
  rw [orDict_dict]
  simp only [runParts_cons, runParts_nil, runParts_nil', ← getIter_part]
  refine outcome_bind2 (fun _ => outcome_bind2 (fun _ => outcome_bind2 (fun _ => outcome_check _)))

theorem boneTl_as : RunsAs (F := F) BoneTl.init
    [(s!!"rotate", iterPart boneRotateCls.init), (s!!"translate", iterPart boneTranslateCls.init), (s!!"scale", iterPart boneRotateCls.init),
     (s!!"shear", iterPart boneTranslateCls.init)]
    [s!!"rotate", s!!"translate", s!!"scale", s!!"shear"] [] [] := by
  intro d
  show outcomeOf ((orDict (.dict d)).bind _) = _
  rw [orDict_dict]
  simp only [runParts_cons, runParts_nil, runParts_nil', ← getIter_part]
  refine outcome_bind2 (fun _ => outcome_bind2 (fun _ => outcome_bind2 (fun _ => outcome_bind2 (fun _ => outcome_check _))))

theorem drawTl_as : RunsAs (F := F) DrawTl.init [(s!!"offsets", iterPart offsetInit)] [s!!"time", s!!"offsets"] [] [] := by
  intro d
  show outcomeOf ((orDict (.dict d)).bind _) = _
  rw [orDict_dict]
  simp only [runParts_cons, runParts_nil, runParts_nil', ← getIter_part]
  refine outcome_bind2 (fun _ => outcome_check _)

theorem anim_as : RunsAs (F := F) Anim.init
    [(s!!"ik", dictPart (Anim.listOf ikTimelineCls)), (s!!"drawOrder", iterPart DrawTl.init), (s!!"bones", dictPart BoneTl.init),
     (s!!"slots", dictPart SlotTl.init), (s!!"events", iterPart eventTimelineCls.init),
     (s!!"transform", dictPart (Anim.listOf transformTimelineCls)), (s!!"path", itemPart Anim.parsePath),
     (s!!"deform", itemPart Anim.parseDeform)]
    Anim.known [] [] := by
  intro d
  show outcomeOf ((orDict (.dict d)).bind _) = _
  rw [orDict_dict]
  simp only [runParts_cons, runParts_nil, runParts_nil', ← getIter_part, ← getDict_part, itemPart]
  show outcomeOf ((Anim.getDict d s!!"ik" _).bind _) = _
  refine outcome_bind (fun _ => outcome_bind2 (fun _ => outcome_bind (fun _ => outcome_bind (fun _ => outcome_bind2 (fun _ =>
    outcome_bind (fun _ => outcome_bind (fun _ => outcome_bind (fun _ => outcome_check _))))))))

/-- the attachments of a skin -/
def attsPart : Option (JVal F) → Except Err Unit
  | none => .ok ()
  | some .null => .ok ()
  | some v => outcomeOf (Skin.parseAttachments v)

theorem skin_as : RunsAs (F := F) Skin.init [] [s!!"name", s!!"attachments"] []
    [(s!!"name", fun o => outcomeOf (optStr (o.getD .null))), (s!!"attachments", attsPart)] := by
  intro d
  show outcomeOf ((orDict (.dict d)).bind _) = _
  rw [orDict_dict]
  simp only [runParts_cons, runParts_nil, runParts_nil']
  show outcomeOf ((Cls.check _ _ d).bind _) = _
  have e : ∀ x : Except Err Unit, outcomeOf x = x := by intro x; cases x <;> rfl
  conv => rhs; rw [← e (Cls.check _ _ d)]
  refine outcome_bind (fun _ => ?_)
  simp only [runParts]
  refine outcome_bind (fun n => ?_)
  cases h : Dict.get? d s!!"attachments" with
  | none => rfl
  | some v =>
    cases v with
    | null => rfl
    | _ =>
      simp only [Option.getD_some, attsPart]
      exact outcome_bind (fun _ => rfl)

/-- the version of the document -/
def skeletonPart : Option (JVal F) → Except Err Unit
  | none => .error .key
  | some (.dict sk) => match Dict.get? sk s!!"spine" with
    | none => .error .key
    | some (.str v) => outcomeOf (Version.mk? F v)
    | some _ => .error .attribute
  | some _ => .error .type

theorem doc_as : RunsAs (F := F) SpineDoc.load
    [(s!!"skeleton", skeletonPart), (s!!"bones", needPart Bone.init), (s!!"slots", needPart Slot.init), (s!!"skins", needPart Skin.init),
     (s!!"events", dictPart eventsCls.init), (s!!"ik", iterPart ikCls.init), (s!!"transform", iterPart transformCls.init),
     (s!!"path", iterPart pathCls.init), (s!!"animations", dictPart Anim.init)]
    (s!!"skeleton" :: AnimData.known) [] [] := by
  intro d
  have hd : ∀ k, k ≠ s!!"skeleton" → Dict.get? d k = Dict.get? (Dict.del d s!!"skeleton") k := by
    intro k hk; rw [Dict.get?_del, if_neg hk]
  have hc : Cls.check (s!!"skeleton" :: AnimData.known) [] d = Cls.check AnimData.known [] (Dict.del d s!!"skeleton") := by
    unfold Cls.check
    rw [Dict.keys_del, List.filter_filter]
    have : (fun k => decide (k ∉ s!!"skeleton" :: AnimData.known)) = (fun k => decide (k ∉ AnimData.known) && decide (k ≠ s!!"skeleton")) := by
      funext k
      by_cases h1 : k = s!!"skeleton" <;> by_cases h2 : k ∈ AnimData.known <;> simp [h1, h2]
    rw [this]
    rfl
  have ha : outcomeOf (AnimData.init d) = (runParts d
      [(s!!"bones", needPart Bone.init), (s!!"slots", needPart Slot.init), (s!!"skins", needPart Skin.init),
       (s!!"events", dictPart eventsCls.init), (s!!"ik", iterPart ikCls.init), (s!!"transform", iterPart transformCls.init),
       (s!!"path", iterPart pathCls.init), (s!!"animations", dictPart Anim.init)]).bind
      (fun _ => (Cls.check (s!!"skeleton" :: AnimData.known) [] d).bind (fun _ => runParts d [])) := by
    rw [hc]
    simp only [runParts_cons, runParts_nil, runParts_nil']
    rw [hd s!!"bones" (by decide), hd s!!"slots" (by decide), hd s!!"skins" (by decide), hd s!!"events" (by decide), hd s!!"ik" (by decide),
      hd s!!"transform" (by decide), hd s!!"path" (by decide), hd s!!"animations" (by decide)]
    unfold AnimData.init
    generalize Dict.del d s!!"skeleton" = d
    simp only [← getIter_part, ← getDict_part, ← getItem_part]
    have b3 : ∀ {α β γ δ : Type} {x : Except Err α} {g : α → Except Err β} {k : β → Except Err γ} {f : γ → Except Err δ} {r : Except Err Unit},
        (∀ b, outcomeOf (f b) = r) → outcomeOf (x.bind (fun a => (g a).bind (fun b => (k b).bind f))) =
          (outcomeOf (x.bind (fun a => (g a).bind k))).bind (fun _ => r) := by
      intro α β γ δ x g k f r h
      cases x with
      | error e => rfl
      | ok a => exact outcome_bind2 (x := g a) h
    show outcomeOf ((getItem d s!!"bones").bind (fun v => (iter v).bind (fun a => (mapE Bone.init a).bind _))) = _
    refine b3 (fun _ => b3 (fun _ => b3 (fun _ => outcome_bind (fun _ => outcome_bind2 (fun _ => outcome_bind2 (fun _ => outcome_bind2 (fun _ =>
      outcome_bind (fun _ => outcome_check _))))))))
  rw [runParts_cons, ← ha]
  unfold SpineDoc.load
  simp only [getItem]
  cases h1 : Dict.get? d s!!"skeleton" with
  | none => rfl
  | some sk =>
    cases sk with
    | dict sk =>
      simp only [skeletonPart]
      simp only [bind, Except.bind]
      cases h2 : Dict.get? sk s!!"spine" with
      | none => rfl
      | some v =>
        cases v with
        | str v =>
          simp only
          exact outcome_bind (x := Version.mk? F v) (f := fun ver => (AnimData.init d).bind (fun a => Except.ok _))
            (fun ver => by cases AnimData.init d <;> rfl)
        | _ => rfl
    | _ => rfl

end Places
end Spine
