import Verif.Model.Py
import Mathlib.Algebra.BigOperators.Group.List.Basic
/-!
Saving and loading estimators: tslearn/bases/bases.py:78-336 and tslearn/hdftools/hdftools.py.

A Python value is a tree. The encoders of `json`, `pickle` and `h5py` are trusted to read back what they
wrote; what is modelled is which values tslearn hands them and what it does with what they return. Keys
are strings without `/`. The order of keys in a dict is kept (Python compares dicts without order).
NumPy scalars are identified with Python numbers.
-/
namespace Verif

/-- A number, Boolean or string. -/
inductive Cell (φ : Type)
  | fl (x : φ)
  | int (z : ℤ)
  | bool (b : Bool)
  | str (s : String)

/-- The data type of an entry. -/
def Cell.kind {φ : Type} : Cell φ → ℕ
  | .fl _ => 0
  | .int _ => 1
  | .bool _ => 2
  | .str _ => 3

/-- A NumPy array: shape and entries in C order. -/
structure Nd (φ : Type) where
  shape : List ℕ
  data : List (Cell φ)

/-- As many entries as the shape says, all of one data type. -/
def Nd.WF {φ : Type} (a : Nd φ) : Prop :=
  a.data.length = a.shape.prod ∧ ∀ c ∈ a.data, ∀ c' ∈ a.data, c.kind = c'.kind

/-- Python values. -/
inductive PyVal (φ : Type)
  | none
  | atom (c : Cell φ)
  | bytes (s : String)
  | arr (a : Nd φ)
  | list (l : List (PyVal φ))
  | dict (kv : List (String × PyVal φ))

variable {φ : Type}

/-- A dictionary. -/
abbrev PyDict (φ : Type) := List (String × PyVal φ)

/-- `a.tolist()` of an array of shape `sh`. -/
def toListAux : List ℕ → List (Cell φ) → PyVal φ
  | [], data => match data with
    | [] => .none
    | c :: _ => .atom c
  | n :: sh, data => .list ((List.range n).map fun i => toListAux sh (data.drop (i * sh.prod)))

def Nd.tolist (a : Nd φ) : PyVal φ := toListAux a.shape a.data

mutual
/-- The shape `numpy.array` gives to nested lists, `none` when they are ragged or contain something else
than numbers, Booleans and strings. -/
def npShape : PyVal φ → Option (List ℕ)
  | .atom _ => some []
  | .list l => match npShapes l with
    | none => none
    | some [] => some [0]
    | some (s :: ss) => if ss.all fun s' => s' = s then some ((ss.length + 1) :: s) else none
  | _ => none
def npShapes : List (PyVal φ) → Option (List (List ℕ))
  | [] => some []
  | v :: vs => match npShape v, npShapes vs with
    | some s, some ss => some (s :: ss)
    | _, _ => none
end

mutual
/-- The leaves of nested lists. -/
def leaves : PyVal φ → List (Cell φ)
  | .atom c => [c]
  | .list l => leavesL l
  | _ => []
def leavesL : List (PyVal φ) → List (Cell φ)
  | [] => []
  | v :: vs => leaves v ++ leavesL vs
end

/-- `numpy.array(v)` for nested lists: `none` stands for a `ValueError` or an object array. `promote`
brings the entries to a common data type. -/
def npArray (promote : List (Cell φ) → List (Cell φ)) (v : PyVal φ) : Option (Nd φ) :=
  (npShape v).map fun s => ⟨s, promote (leaves v)⟩

/-- `p.tolist()`, an attribute only arrays have. -/
def elemToList : PyVal φ → Except PyErr (PyVal φ)
  | .arr b => .ok b.tolist
  | _ => .error .attributeError

/-- One entry of `BaseModelPackage._listify`, tslearn/bases/bases.py:151-165. -/
def listify : PyVal φ → Except PyErr (PyVal φ)
  | .arr a => .ok a.tolist
  | .list [] => .error .indexError
  | .list (.arr a :: rest) => do
    let l ← (PyVal.arr a :: rest).mapM elemToList
    return .list l
  | v => .ok v

/-- Apply a function to every value of a dictionary. -/
def dictMapM (f : PyVal φ → Except PyErr (PyVal φ)) (d : PyDict φ) : Except PyErr (PyDict φ) :=
  d.mapM fun kv => (f kv.2).map fun v => (kv.1, v)

/-- One entry of `BaseModelPackage._none_to_str`, tslearn/bases/bases.py:142-148. -/
def noneToStr : PyVal φ → PyVal φ
  | .none => .atom (.str "None")
  | v => v

mutual
/-- `json.dump` accepts the value: no array and no bytes inside. -/
def jsonOk : PyVal φ → Bool
  | .arr _ => false
  | .bytes _ => false
  | .list l => jsonOkL l
  | .dict d => jsonOkD d
  | _ => true
def jsonOkL : List (PyVal φ) → Bool
  | [] => true
  | v :: vs => jsonOk v && jsonOkL vs
def jsonOkD : List (String × PyVal φ) → Bool
  | [] => true
  | kv :: vs => jsonOk kv.2 && jsonOkD vs
end

/-- What a saved estimator consists of: hyper-parameters and fitted attributes. -/
structure Pkg (φ : Type) where
  hyper : PyDict φ
  model : PyDict φ

/-- An attribute of an estimator: name, value, whether it is a property of the class, whether it is
callable. -/
structure Attr (φ : Type) where
  name : List Char
  val : PyVal φ
  isProperty : Bool
  callable : Bool

/-- `_get_model_params`, tslearn/bases/bases.py:96-108. -/
def getModelParams (attrs : List (Attr φ)) : List (List Char × PyVal φ) :=
  attrs.filterMap fun a =>
    if a.isProperty then none
    else if ¬ (['_', '_'].isPrefixOf a.name) ∧ (['_'].isSuffixOf a.name) ∧ ¬ a.callable then some (a.name, a.val)
    else none

/-- The test of `_to_dict` on the answer of `_is_fitted()`, tslearn/bases/bases.py:121-122: `none` is
Python's `None`, what the inherited placeholder `_is_fitted` (tslearn/bases/bases.py:81-94) returns. -/
def checkFitted (isFitted : Option Bool) : Except PyErr Unit :=
  if isFitted = some true then .ok () else .error .notFitted

/-- `to_json(path)`, tslearn/bases/bases.py:259-270 with `_to_dict`, 110-139: the dictionary written. -/
def toJson (isFitted : Option Bool) (p : Pkg φ) : Except PyErr (Pkg φ) := do
  checkFitted isFitted
  let model ← dictMapM listify p.model
  let hyper ← dictMapM listify p.hyper
  if jsonOkD hyper && jsonOkD model then return ⟨hyper, model⟩ else throw .typeError

/-- `numpy.array(p)` in the fallback of `from_json`, tslearn/bases/bases.py:300 and 302. Values that make
it fail or return an object array are not modelled. -/
def elemToArr (promote : List (Cell φ) → List (Cell φ)) (v : PyVal φ) : Except PyErr (PyVal φ) :=
  match npArray promote v with
  | some a => .ok (.arr a)
  | none => .error .notModelled

/-- One entry of the loop of `from_json`, tslearn/bases/bases.py:291-303. -/
def unlist (promote : List (Cell φ) → List (Cell φ)) : PyVal φ → Except PyErr (PyVal φ)
  | .list l =>
    match npArray promote (.list l) with
    | some a => .ok (.arr a)
    | none => do
      let l' ← l.mapM (elemToArr promote)
      return .list l'
  | v => .ok v

/-- One entry of `_byte2string`, tslearn/bases/bases.py:202-208. -/
def byte2string : PyVal φ → PyVal φ
  | .bytes s => .atom (.str s)
  | v => v

/-- `from_json(path)`, tslearn/bases/bases.py:272-305, up to building the instance. -/
def fromJson (promote : List (Cell φ) → List (Cell φ)) (p : Pkg φ) : Except PyErr (Pkg φ) := do
  let model ← dictMapM (fun v => unlist promote (byte2string v)) p.model
  let hyper ← dictMapM (fun v => unlist promote (byte2string v)) p.hyper
  return ⟨hyper, model⟩

/-- `to_pickle(path)`, tslearn/bases/bases.py:307-318: the dictionary written. -/
def toPickle (isFitted : Option Bool) (p : Pkg φ) : Except PyErr (Pkg φ) := do
  checkFitted isFitted
  return p

/-- `from_pickle(path)`, tslearn/bases/bases.py:320-336. -/
def fromPickle (p : Pkg φ) : Pkg φ :=
  ⟨p.hyper.map fun kv => (kv.1, byte2string kv.2), p.model.map fun kv => (kv.1, byte2string kv.2)⟩

/-- The content of an HDF5 group. -/
inductive H5 (φ : Type)
  | data (v : PyVal φ)
  | group (l : List (String × H5 φ))

mutual
/-- `_dicts_to_group` on one item, tslearn/hdftools/hdftools.py:50-112: `none` when nothing is written
(an empty dictionary creates no group). -/
def toH5 : PyVal φ → Except PyErr (Option (H5 φ))
  | .arr a => .ok (some (.data (.arr a)))
  | .atom c => .ok (some (.data (.atom c)))
  | .dict d => do
    let l ← toH5D d
    return if l.isEmpty then none else some (.group l)
  | _ => .error .typeError
/-- `_dicts_to_group`, tslearn/hdftools/hdftools.py:50-112. -/
def toH5D : List (String × PyVal φ) → Except PyErr (List (String × H5 φ))
  | [] => .ok []
  | kv :: d => do
    let h ← toH5 kv.2
    let l ← toH5D d
    return match h with
      | none => l
      | some h => (kv.1, h) :: l
end

mutual
/-- `_dicts_from_group`, tslearn/hdftools/hdftools.py:138-150: `item[()]` of a string is `bytes`. -/
def fromH5 : H5 φ → PyVal φ
  | .data (.atom (.str s)) => .bytes s
  | .data v => v
  | .group l => .dict (fromH5D l)
def fromH5D : List (String × H5 φ) → List (String × PyVal φ)
  | [] => []
  | kh :: l => (kh.1, fromH5 kh.2) :: fromH5D l
end

/-- An HDF5 file: complete, or left behind by a write that raised. -/
inductive H5File (φ : Type)
  | complete (l : List (String × H5 φ))
  | broken

/-- `to_hdf5(path)`, tslearn/bases/bases.py:210-229 with `save_dict`, tslearn/hdftools/hdftools.py:8-47.
`fs` is what `path` holds before, the first component what it holds afterwards. -/
def toHdf5 (fs : Option (H5File φ)) (isFitted : Option Bool) (p : Pkg φ) :
    Option (H5File φ) × Except PyErr Unit :=
  match checkFitted isFitted with
  | .error e => (fs, .error e)
  | .ok _ =>
    match fs with
    | some f => (some f, .error .fileExists)
    | none =>
      let d : PyDict φ := [("hyper_params", .dict (p.hyper.map fun kv => (kv.1, noneToStr kv.2))),
        ("model_params", .dict p.model)]
      match toH5D d with
      | .error e => (some .broken, .error e)
      | .ok l => (some (.complete l), .ok ())

/-- One hyper-parameter of `from_hdf5`, tslearn/bases/bases.py:252-255. -/
def strToNone : PyVal φ → PyVal φ
  | .atom (.str s) => if s = "None" then .none else .atom (.str s)
  | v => v

/-- `model[name]` where a dictionary is expected. -/
def subDict (name : String) (d : PyDict φ) : Except PyErr (PyDict φ) :=
  match d.lookup name with
  | some (.dict kv) => .ok kv
  | _ => .error .keyError

/-- `from_hdf5(path)`, tslearn/bases/bases.py:231-257, up to building the instance. -/
def fromHdf5 (fs : Option (H5File φ)) : Except PyErr (Pkg φ) :=
  match fs with
  | some (.complete l) => do
    -- an empty file has no group `data`
    if l.isEmpty then throw .keyError
    let m := fromH5D l
    let hyper ← subDict "hyper_params" m
    let model ← subDict "model_params" m
    return ⟨hyper.map fun kv => (kv.1, strToNone (byte2string kv.2)), model.map fun kv => (kv.1, byte2string kv.2)⟩
  | _ => .error .notModelled

end Verif
