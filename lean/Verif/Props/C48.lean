import Verif.Model.Backend
import Mathlib.Tactic.Common
/-!
C48: which backend is chosen.
-/
set_option linter.unusedSectionVars false
namespace Verif

/-- A word occurs in a text. -/
def Spec.Occurs (w t : List Char) : Prop := ∃ a b, t = a ++ w ++ b

/-- An argument settles the choice: an instance of `Backend` for itself, anything that names NumPy for NumPy, anything else that names
PyTorch for PyTorch. -/
def Spec.Settles : BeArg → Bknd → Prop
  | .backend b, c => c = b
  | .other type text, .numpy => Occurs "numpy".toList ((type ++ text).map Char.toLower)
  | .other type text, .pytorch =>
    ¬Occurs "numpy".toList ((type ++ text).map Char.toLower) ∧ Occurs "torch".toList ((type ++ text).map Char.toLower)

open Spec

theorem subText_iff (w t : List Char) : subText w t = true ↔ Occurs w t := by
  induction t with
  | nil =>
    simp only [subText, Occurs, List.isEmpty_iff]
    constructor
    · rintro rfl; exact ⟨[], [], rfl⟩
    · rintro ⟨a, b, h⟩
      have := congrArg List.length h
      simp only [List.length_nil, List.length_append] at this
      exact List.length_eq_zero_iff.mp (by omega)
  | cons c t ih =>
    simp only [subText, Bool.or_eq_true, List.isPrefixOf_iff_prefix, ih]
    constructor
    · rintro (⟨b, h⟩ | ⟨a, b, h⟩)
      · exact ⟨[], b, by simpa using h.symm⟩
      · exact ⟨c :: a, b, by rw [h]; rfl⟩
    · rintro ⟨a, b, h⟩
      cases a with
      | nil => exact .inl ⟨b, by simpa using h.symm⟩
      | cons x a =>
        right
        simp only [List.cons_append, List.cons.injEq] at h
        exact ⟨a, b, h.2⟩

/-- The first argument that settles the choice does; without one it is NumPy. -/
theorem C48_first (args : List BeArg) :
    (∃ pre a post, args = pre ++ a :: post ∧ (∀ x ∈ pre, ∀ b, ¬Settles x b) ∧ Settles a (instantiateBackend args)) ∨
    ((∀ x ∈ args, ∀ b, ¬Settles x b) ∧ instantiateBackend args = .numpy) := by
  induction args with
  | nil => exact .inr ⟨fun x hx => (by cases hx), by decide⟩
  | cons x args ih =>
    cases x with
    | backend b => exact .inl ⟨[], .backend b, args, rfl, fun x hx => (by cases hx), rfl⟩
    | other type text =>
      by_cases h1 : subText "numpy".toList (argText type text) = true
      · left
        refine ⟨[], _, args, rfl, fun x hx => (by cases hx), ?_⟩
        have : instantiateBackend (.other type text :: args) = .numpy := by
          unfold instantiateBackend; rw [if_pos h1]; decide
        rw [this]
        exact (subText_iff _ _).mp h1
      · by_cases h2 : subText "torch".toList (argText type text) = true
        · left
          refine ⟨[], _, args, rfl, fun x hx => (by cases hx), ?_⟩
          have : instantiateBackend (.other type text :: args) = .pytorch := by
            unfold instantiateBackend; rw [if_neg h1, if_pos h2]; decide
          rw [this]
          exact ⟨fun h => h1 ((subText_iff _ _).mpr h), (subText_iff _ _).mp h2⟩
        · have hi : instantiateBackend (.other type text :: args) = instantiateBackend args := by
            show (if _ then _ else _) = _
            rw [if_neg h1, if_neg h2]
          have hn : ∀ b, ¬Settles (.other type text) b := by
            intro b
            cases b with
            | numpy => exact fun h => h1 ((subText_iff _ _).mpr h)
            | pytorch => exact fun h => h2 ((subText_iff _ _).mpr h.2)
          rw [hi]
          rcases ih with ⟨pre, a, post, e, h3, h4⟩ | ⟨h3, h4⟩
          · refine .inl ⟨_ :: pre, a, post, by rw [e]; rfl, fun y hy b => ?_, h4⟩
            rcases List.mem_cons.mp hy with rfl | hy
            · exact hn b
            · exact h3 y hy b
          · refine .inr ⟨fun y hy b => ?_, h4⟩
            rcases List.mem_cons.mp hy with rfl | hy
            · exact hn b
            · exact h3 y hy b

/-- An explicit backend in the first place wins, whatever is passed after it: the way it is called with `be` in the library. Missing: a
backend in another place. -/
theorem C48_explicit_partial (b : Bknd) (args : List BeArg) : instantiateBackend (.backend b :: args) = b := rfl

/-- Arguments that name no backend do not matter, `None` among them. -/
theorem C48_ignored (pre args : List BeArg) (h : ∀ x ∈ pre, ∀ b, ¬Settles x b) : instantiateBackend (pre ++ args) = instantiateBackend args := by
  induction pre with
  | nil => rfl
  | cons x pre ih =>
    have hx := h x (by simp)
    have ih := ih fun y hy => h y (by simp [hy])
    cases x with
    | backend b => exact absurd rfl (hx b)
    | other type text =>
      have h1 : ¬subText "numpy".toList (argText type text) = true := fun h => hx .numpy ((subText_iff _ _).mp h)
      have h2 : ¬subText "torch".toList (argText type text) = true := fun h => hx .pytorch ⟨hx .numpy, (subText_iff _ _).mp h⟩
      rw [← ih]
      show (if _ then _ else _) = _
      rw [if_neg h1, if_neg h2]
      rfl

/-- `Backend(name)` is the PyTorch backend exactly when the name has "torch" in it, in upper or lower case. -/
theorem C48_backend_name (name : List Char) : namedBackend name = .pytorch ↔ Occurs "torch".toList (name.map Char.toLower) := by
  have e : subText "torch".toList (argText "<class 'str'>".toList name) = subText "torch".toList (name.map Char.toLower) := by
    have h1 : argText "<class 'str'>".toList name = "<class 'str'>".toList ++ name.map Char.toLower := by
      unfold argText
      rw [List.map_append]
      congr 1
    rw [h1]
    rfl
  unfold namedBackend selectBackend
  rw [e, ← subText_iff]
  split_ifs with h
  · exact ⟨fun _ => h, fun _ => rfl⟩
  · exact ⟨fun h' => (by cases h'), fun h' => absurd h' h⟩

example : namedBackend "PyTorch".toList = .pytorch ∧ namedBackend "numpy".toList = .numpy ∧ namedBackend "chtor".toList = .numpy := by
  decide +kernel

/-- `None`. -/
def argNone : BeArg := .other "<class 'NoneType'>".toList "None".toList
/-- A NumPy array. -/
def argNumpy : BeArg := .other "<class 'numpy.ndarray'>".toList "[1.]".toList
/-- A PyTorch tensor. -/
def argTorch : BeArg := .other "<class 'torch.Tensor'>".toList "tensor([1.])".toList
/-- A list of PyTorch tensors. -/
def argTensors : BeArg := .other "<class 'list'>".toList "[tensor(1.), tensor(2.)]".toList
/-- A string. -/
def argStr (s : String) : BeArg := .other "<class 'str'>".toList s.toList

/-- Names of backends, in any case. -/
theorem C48_named : instantiateBackend [argStr "numpy"] = .numpy ∧ instantiateBackend [argStr "NumPy"] = .numpy ∧
    instantiateBackend [argStr "pytorch"] = .pytorch ∧ instantiateBackend [argStr "torch"] = .pytorch ∧
    instantiateBackend [argStr "TORCH"] = .pytorch ∧ instantiateBackend [argNone] = .numpy ∧ instantiateBackend [argNone, argTorch] = .pytorch ∧
    instantiateBackend [argNone, argNumpy] = .numpy := by decide +kernel

/-- False: an explicit backend is preferred to arrays. An array before it wins. -/
theorem C48_false_explicit : ∃ args, BeArg.backend .pytorch ∈ args ∧ (∀ b, .backend b ∈ args → b = .pytorch) ∧ instantiateBackend args = .numpy :=
  ⟨[argNumpy, .backend .pytorch], by simp, by intro b h; simpa [argNumpy] using h, by decide +kernel⟩

/-- False: the choice does not depend on the order of the data. -/
theorem C48_false_order : instantiateBackend [argNone, argNumpy, argTorch] ≠ instantiateBackend [argNone, argTorch, argNumpy] := by decide +kernel

/-- False: data made of tensors get PyTorch. A list of tensors does not name it. -/
theorem C48_false_list : instantiateBackend [argNone, argTensors] = .numpy := by decide +kernel

/-- The two selections disagree on a text that names both. -/
theorem C48_false_both : instantiateBackend [argStr "numpy or torch"] = .numpy ∧ namedBackend "numpy or torch".toList = .pytorch := by decide +kernel

example : Settles argTorch .pytorch :=
  ⟨fun h => absurd ((subText_iff _ _).mpr h) (by decide +kernel), (subText_iff _ _).mp (by decide +kernel)⟩
example : ∀ b, ¬Settles argNone b := by
  intro b
  cases b with
  | numpy => exact fun h => absurd ((subText_iff _ _).mpr h) (by decide +kernel)
  | pytorch => exact fun h => absurd ((subText_iff _ _).mpr h.2) (by decide +kernel)
example : instantiateBackend [.backend .pytorch, argNumpy] = .pytorch := rfl

end Verif
