import Verif.Model.Datasets
/-!
Specification of a dataset stored below a directory.
-/
namespace Verif.Spec

/-- A file system as the operating system keeps it: what exists lies in directories, and regular files are no directories. -/
structure FSOk {C : Type} (fs : FS C) : Prop where
  parents : ∀ q, (fs.file q).isSome ∨ fs.dir q = true → ∀ p, p <+: q → p ≠ q → fs.dir p = true
  files : ∀ p, (fs.file p).isSome → fs.dir p = false

/-- The dataset `n` given its files by name: both parts as text if both text files are there, else both as ARFF. -/
def storedDataset {C D : Type} (parse : String → C → Except PyErr D) (get : String → Option C) (n : String) : Option (D × D) :=
  let both (ext : String) : Option (Option (D × D)) :=
    match get (n ++ "_TRAIN." ++ ext), get (n ++ "_TEST." ++ ext) with
    | some a, some b =>
      match parse ext a, parse ext b with
      | .ok x, .ok y => some (some (x, y))
      | _, _ => some none
    | _, _ => none
  match both "txt", both "arff" with
  | some r, _ => r
  | none, some r => r
  | none, none => none

/-- Content of an archive: the last entry with a name. -/
def archived {C : Type} (files : List (FPath × C)) (f : String) : Option C := (files.reverse.find? fun e => e.1 = [f]).map Prod.snd

/-- A name that is a single file name. -/
def SimpleName (n : String) : Prop := n ≠ "" ∧ n ≠ "." ∧ n ≠ ".." 

end Verif.Spec
