import Mathlib.Data.Nat.Notation
/-!
Backend selection: tslearn/backend/backend.py:7-65.
-/
namespace Verif

/-- Instances of `Backend`, told apart by `backend_string`. -/
inductive Bknd where
  | numpy
  | pytorch
  deriving DecidableEq

/-- An argument: an instance of `Backend`, or anything else, of which only `str(type(arg))` and `str(arg)` matter. -/
inductive BeArg where
  | backend (b : Bknd)
  | other (type text : List Char)
  deriving DecidableEq

/-- `needle in text` for strings. -/
def subText (needle : List Char) : List Char → Bool
  | [] => needle.isEmpty
  | c :: cs => needle.isPrefixOf (c :: cs) || subText needle cs

/-- `(str(type(arg)) + str(arg)).lower()`, tslearn/backend/backend.py:23 and 49; `lower` on ASCII. -/
def argText (type text : List Char) : List Char := (type ++ text).map Char.toLower

/-- `select_backend`, tslearn/backend/backend.py:31-52. -/
def selectBackend (type text : List Char) : Bknd := if subText "torch".toList (argText type text) then .pytorch else .numpy

/-- `Backend(name)` for a string, tslearn/backend/backend.py:69-70. -/
def namedBackend (name : List Char) : Bknd := selectBackend "<class 'str'>".toList name

/-- `instantiate_backend`, tslearn/backend/backend.py:7-28. -/
def instantiateBackend : List BeArg → Bknd
  | [] => namedBackend "numpy".toList
  | .backend b :: _ => b
  | .other type text :: args =>
    if subText "numpy".toList (argText type text) then namedBackend "numpy".toList
    else if subText "torch".toList (argText type text) then namedBackend "pytorch".toList
    else instantiateBackend args

end Verif
