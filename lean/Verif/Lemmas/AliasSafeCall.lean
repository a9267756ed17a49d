import Verif.Lemmas.AliasSafeRun
/-
The calls of the editor stay among the editor's objects.
-/
set_option linter.unusedSectionVars false
namespace Spine
namespace Alias
open M
variable {F : Type} {R : Nat → Prop} [PyRt F]

theorem ins_edI {e : Ed F} : ins R e ↔ ins R e.skeleton ∧ ins R e.data ∧ ins R e.images ∧ ins R e.graph := Iff.rfl

/-- goals about editors -/
macro "ed1" : tactic => `(tactic| (
  simp only [ins_edI, ins_pair, ins_plain, ins_ok, ins_error, true_and, and_true] at *
  (try have hcg := fun h => ins_cleanGraph (R := R) h ‹cleanGraph _ _ _ _ = _›)
  (try have hdt := fun h => ins_detach (R := R) h ‹detach _ = _›)
  simp_all only [ins_plain, forall_const, and_self, true_and, and_true]))

theorem safe_clean {E : Env F} {e : Ed F} (he : ins R e) : Safe R (clean E e) := by
  unfold clean
  have h1 := he.2.1
  safe
  all_goals ed1
macro_rules | `(tactic| safe1) => `(tactic| with_reducible refine safe_clean ?_)
theorem safe_cleanUnless {E : Env F} {s : Bool} {e : Ed F} (he : ins R e) : Safe R (cleanUnless E s e) := by
  unfold cleanUnless
  safe
macro_rules | `(tactic| safe1) => `(tactic| with_reducible refine safe_cleanUnless ?_)
theorem safe_eraseSkins {E : Env F} {l : List Str} {s : Bool} {e : Ed F} (he : ins R e) : Safe R (eraseSkins E l s e) := by
  unfold eraseSkins
  have h1 := he.2.1
  safe
  all_goals ed1
macro_rules | `(tactic| safe1) => `(tactic| with_reducible refine safe_eraseSkins ?_)
theorem safe_eraseAnims {E : Env F} {a : Editor.NamesArg} {t s : Bool} {e : Ed F} (he : ins R e) : Safe R (eraseAnims E a t s e) := by
  unfold eraseAnims
  have h1 := he.2.1
  safe
macro_rules | `(tactic| safe1) => `(tactic| with_reducible refine safe_eraseAnims ?_)

theorem ins_map {α β : Type} [Ins α] [Ins β] {q : Except Err α} {f : α → β} (hq : ins R q) (hf : ∀ x, ins R x → ins R (f x)) :
    ins R (q.map f) := by
  cases q with
  | error e => exact ins_error.mpr trivial
  | ok x => exact ins_ok.mpr (hf x (ins_ok.mp hq))

/-- a call changes only objects of the editor and new ones, and returns such objects -/
theorem safe_run {E : Env F} {c : Call F} {e : Ed F} (he : ins R e) : Safe R (c.run E e) := by
  have hd := he.2.1
  cases c <;> simp only [Call.run] <;> safe
  all_goals rename_i q hq
  all_goals first
    | exact ⟨ins_map hq.1 (fun _ _ => ins_none.mpr trivial), hq.2⟩
    | exact ⟨ins_map hq.1 (fun _ h => ins_some.mpr h.1), hq.2⟩
    | exact ⟨ins_map hq (fun _ _ => ins_none.mpr trivial), he⟩
    | exact ⟨ins_map hq (fun _ h => ins_some.mpr h), he⟩
end Alias
end Spine
