import Verif.Spec.Console
import Verif.Lemmas.Repr
import Verif.Lemmas.SkinOps
import Verif.Lemmas.CleanTotal
set_option linter.unusedSectionVars false
namespace Spine
open Graph Container
variable {F : Type} [PyRt F]

namespace Editor
namespace Console

/-! ### The results are those of the model without printing -/

theorem cleanImages_fst (ids : List (Option Str)) (e : Editor F) : (cleanImages ids e).1 = Editor.cleanImages ids e := rfl

theorem detach_fst (l : List Str) (g : SGraph F) : (detach l g).1 = Editor.detach g := by
  unfold detach Editor.detach
  split
  · rename_i h; simp only [h]
  · rename_i h; simp only [h]
    split
    · rename_i h; simp only [h]
    · rename_i h; simp only [h]

theorem clean_fst (e : Editor F) : (clean e).1 = Editor.clean e := by
  unfold clean Editor.clean
  simp only
  split
  · rename_i h; simp only [h]
  · rename_i slots atts h; simp only [h]
    split
    · rename_i h; simp only [h]
    · rename_i h; simp only [h]
      split
      · rename_i h; simp only [h]
      · rename_i h; simp only [h]
        split
        · rename_i h; simp only [h]
        · rename_i h; simp only [h]
          rw [← detach_fst (setList F atts)]
          split
          · rename_i h; simp only [h]
          · rename_i h; simp only [h, cleanImages_fst]

theorem cleanUnless_fst (safe : Bool) (e : Editor F) : (cleanUnless safe e).1 = Editor.cleanUnless safe e := by
  unfold cleanUnless Editor.cleanUnless
  split
  · rfl
  · exact clean_fst e

theorem eraseSkins_fst (names : List Str) (safe : Bool) (e : Editor F) : (eraseSkins names safe e).1 = Editor.eraseSkins names safe e := by
  unfold eraseSkins Editor.eraseSkins
  split
  · rename_i h; simp only [h]
  · rename_i h; simp only [h]
    split
    · rename_i h; simp only [h]
    · rename_i h; simp only [h]
      rw [← cleanUnless_fst]
      split
      · rename_i h; simp only [h]
      · rename_i h; simp only [h, cleanImages_fst]

theorem eraseAnims_fst (arg : NamesArg) (strict safe : Bool) (e : Editor F) :
    (eraseAnims arg strict safe e).1 = Editor.eraseAnims arg strict safe e := by
  unfold eraseAnims Editor.eraseAnims
  split
  · rfl
  · simp only
    split
    · rfl
    · rw [← cleanUnless_fst]
      split
      · rename_i h; simp only [h]
      · rename_i h; simp only [h]

theorem run_fst (o : Op F) (e : Editor F) : (run o e).1 = o.run e := by
  cases o with
  | eraseSkins n s => simp only [run, Op.run, eraseSkins_fst]
  | eraseAnims a t s => simp only [run, Op.run, eraseAnims_fst]
  | clean => simp only [run, Op.run, clean_fst]
  | scale x y => rfl

/-! ### Images -/

/-- what was there is still there or named -/
def Told (e : Editor F) (q : Editor F × List Line) : Prop :=
  (Dict.keys e.images).Perm (Dict.keys q.1.images ++ imagesIn q.2)

theorem imagesIn_append (l m : List Line) : imagesIn (l ++ m) = imagesIn l ++ imagesIn m := by
  induction l with
  | nil => rfl
  | cons x l ih => cases x <;> simp [imagesIn, ih]

theorem told_same {e e' : Editor F} (l : List Line) (h : e'.images = e.images) (hl : imagesIn l = []) : Told e (e', l) := by
  unfold Told; simp [h, hl]

theorem told_cleanImages (ids : List (Option Str)) (e : Editor F) : Told e (cleanImages ids e) := by
  unfold Told cleanImages Editor.cleanImages
  have : imagesIn (if (e.images.filter (fun p => some p.1 ∈ ids)).map (·.1) = [] then [] else
      [.images ((e.images.filter (fun p => some p.1 ∈ ids)).map (·.1))]) = (e.images.filter (fun p => some p.1 ∈ ids)).map (·.1) := by
    split
    · rename_i h; rw [h]; rfl
    · simp [imagesIn]
  simp only [this]
  unfold Dict.keys
  rw [← List.map_append]
  apply List.Perm.map
  have h := (List.filter_append_perm (fun p : Str × ImageRef F => decide (some p.1 ∈ ids)) e.images).symm
  refine h.trans (List.perm_append_comm.trans ?_)
  apply List.Perm.append_right
  rw [show (fun p : Str × ImageRef F => !decide (some p.1 ∈ ids)) = (fun p => decide (some p.1 ∉ ids)) from by funext p; simp]

theorem Told.trans {e : Editor F} {q r : Editor F × List Line} (h1 : Told e q) (h2 : Told q.1 r) : Told e (r.1, q.2 ++ r.2) := by
  unfold Told at *
  simp only [imagesIn_append]
  refine h1.trans ?_
  refine (List.Perm.append_right _ h2).trans ?_
  rw [List.append_assoc]
  exact List.Perm.append_left _ List.perm_append_comm

theorem told_then {e e' : Editor F} {l : List Line} (ids : List (Option Str)) (h : e'.images = e.images) (hl : imagesIn l = []) :
    Told e ((cleanImages ids e').1, l ++ (cleanImages ids e').2) :=
  (told_same l h hl).trans (told_cleanImages ids e')

theorem images_readBack {e e' : Editor F} {r : Except Err Unit} (h : readBack e = (r, e')) : e'.images = e.images := by
  unfold readBack at h
  split at h
  · injection h with _ h; subst h; rfl
  · split at h
    · injection h with _ h; subst h; rfl
    · split at h
      · injection h with _ h; subst h; rfl
      · split at h <;> (injection h with _ h; subst h; rfl)

theorem detach_images (l : List Str) (g : SGraph F) : imagesIn (detach l g).2 = [] := by
  unfold detach
  split
  · rfl
  · split <;> rfl

theorem told_clean (e : Editor F) : Told e ((clean e).1.2, (clean e).2) := by
  unfold clean
  simp only
  split
  · exact told_same _ rfl rfl
  · split
    · exact told_same _ rfl rfl
    · split
      · rename_i h
        have h := images_readBack h
        exact told_same _ h rfl
      · rename_i h
        have h := images_readBack h
        split
        · exact told_same _ h rfl
        · split
          · rename_i hd
            refine told_same _ h ?_
            have := congrArg (fun q => imagesIn q.2) hd
            rw [detach_images] at this
            exact this.symm
          · rename_i hd
            have hl := congrArg (fun q => imagesIn q.2) hd
            rw [detach_images] at hl
            exact told_then (l := .slots _ :: _) _ h hl.symm

theorem told_cleanUnless (safe : Bool) (e : Editor F) : Told e ((cleanUnless safe e).1.2, (cleanUnless safe e).2) := by
  unfold cleanUnless
  split
  · exact told_same _ rfl rfl
  · exact told_clean e

theorem told_eraseSkins (names : List Str) (safe : Bool) (e : Editor F) :
    Told e ((eraseSkins names safe e).1.2, (eraseSkins names safe e).2) := by
  unfold eraseSkins
  split
  · exact told_same _ rfl rfl
  · simp only
    split
    · exact told_same _ rfl rfl
    · rename_i a _ _ g _
      have h : Told e _ := told_cleanUnless safe { e.withData a with graph := g }
      split
      · rename_i hc; rw [hc] at h; exact h
      · rename_i hc; rw [hc] at h
        exact h.trans (told_cleanImages _ _)

theorem told_eraseAnims (arg : NamesArg) (strict safe : Bool) (e : Editor F) :
    Told e ((eraseAnims arg strict safe e).1.2, (eraseAnims arg strict safe e).2) := by
  unfold eraseAnims
  split
  · exact told_same _ rfl rfl
  · rename_i names
    simp only
    split
    · exact told_same _ rfl rfl
    · have h : Told e _ := told_cleanUnless safe (e.withData { e.data with animations := (eraseRaw names e.data.animations).1 })
      split
      · rename_i hc; rw [hc] at h; exact h
      · rename_i hc; rw [hc] at h; exact h

theorem images_scale (x y : Num F) (e : Editor F) : (Editor.scale x y e).2.images = e.images := by
  unfold Editor.scale
  split <;> rfl

theorem told_run (o : Op F) (e : Editor F) : Told e ((run o e).1.2, (run o e).2) := by
  cases o with
  | eraseSkins n s => exact told_eraseSkins n s e
  | eraseAnims a t s => exact told_eraseAnims a t s e
  | clean => exact told_clean e
  | scale x y => exact told_same _ (images_scale x y e) rfl

theorem told_log (ops : List (Op F)) (e : Editor F) : Told e (ops.foldl (fun e o => (o.run e).2) e, log ops e) := by
  induction ops generalizing e with
  | nil => exact told_same _ rfl rfl
  | cons o ops ih =>
    have h := (told_run o e).trans (ih (run o e).1.2)
    simp only [run_fst] at h
    simp only [List.foldl_cons, log, run_fst]
    exact h

/-! ### The text -/

theorem text_cancel {pr : Char → Bool} {l m : Line} {r r' : Str} (h : l.text pr ++ r = m.text pr ++ r') : l = m ∧ r = r' := by
  cases l <;> cases m <;> simp only [Line.text, List.append_assoc] at h <;>
    first
    | (have h := List.append_cancel_left h
       obtain ⟨rfl, rfl⟩ := Repr.list_cancel h
       exact ⟨rfl, rfl⟩)
    | (exfalso
       have h := congrArg (fun s : Str => s[8]?) h
       simp at h)

theorem out_inj {pr : Char → Bool} : ∀ {l m : List Line}, out pr l = out pr m → l = m
  | [], [], _ => rfl
  | [], b :: m, h => by cases b <;> cases h
  | a :: l, [], h => by cases a <;> cases h
  | a :: l, b :: m, h => by
    simp only [out, List.append_assoc] at h
    obtain ⟨e1, e2⟩ := text_cancel h
    have e2 : out pr l = out pr m := List.append_cancel_left e2
    rw [e1, out_inj e2]

end Console
end Editor
end Spine
