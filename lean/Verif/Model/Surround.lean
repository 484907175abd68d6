import Verif.Model.Backend
import Verif.Model.Datasets
import Verif.Model.Series
/-!
Functions around the data: casts between containers, choice of a Keras backend, places and contents of cached datasets, text of an error.
-/
namespace Verif

/-! ## Casts -/

/-- Containers given to `cast`; `other` is one whose type names neither NumPy nor PyTorch nor `list`, such as a tuple. -/
inductive Box where
  | list | ndarray | tensor | other
  deriving DecidableEq, Repr

/-- `str(type(data)).lower()`, tslearn/backend/backend.py:107; `other` is shown as a tuple. -/
def Box.typeText : Box → List Char
  | .list => "<class 'list'>".toList
  | .ndarray => "<class 'numpy.ndarray'>".toList
  | .tensor => "<class 'torch.tensor'>".toList
  | .other => "<class 'tuple'>".toList

/-- `array_type` after `lower()` and the renaming, tslearn/backend/backend.py:108-110. -/
def castName (arrayType : List Char) : List Char :=
  let t := arrayType.map Char.toLower
  if t = "pytorch".toList then "torch".toList else t

/-- `cast(data, array_type)`, tslearn/backend/backend.py:107-116: the container of the result; the content `c` is passed on (`tolist` and `be.array` copy
numbers, library). A tuple has no `tolist`. -/
def castBox {C : Type} (box : Box) (c : C) (arrayType : List Char) : Except PyErr (Box × C) :=
  let t := castName arrayType
  if subText t box.typeText then .ok (box, c)
  else if t = "list".toList then
    match box with
    | .ndarray | .tensor => .ok (.list, c)
    | _ => .error .attributeError
  else match namedBackend t with
    | .numpy => .ok (.ndarray, c)
    | .pytorch => .ok (.tensor, c)

/-! ## Keras -/

/-- What `import_module(name)` does, tslearn/backend/__init__.py:21: it succeeds, `ModuleNotFoundError` is raised, or another exception. -/
inductive ImportOutcome where
  | found | notFound | broken (e : PyErr)

/-- The outcome of `check_keras_backend`: the value of `KERAS_BACKEND` afterwards, `ImportError`, or the exception of a broken module. -/
inductive KerasOutcome where
  | chosen (v : String) | noBackend | raises (e : PyErr)
  deriving DecidableEq

/-- The loop over the candidates, tslearn/backend/__init__.py:19-34. -/
def kerasLoop (imp : String → ImportOutcome) : List String → KerasOutcome
  | [] => .noBackend
  | b :: bs =>
    match imp b with
    | .found => .chosen b
    | .notFound => kerasLoop imp bs
    | .broken e => .raises e

/-- `check_keras_backend()`, tslearn/backend/__init__.py:18-34; `env` is `os.environ.get("KERAS_BACKEND")`, the empty string counts as unset. -/
def checkKeras (env : Option String) (imp : String → ImportOutcome) : KerasOutcome :=
  match env with
  | some v => if v = "" then kerasLoop imp ["torch", "tensorflow", "jax"] else .chosen v
  | none => kerasLoop imp ["torch", "tensorflow", "jax"]

/-! ## Places of datasets -/

/-- `_check_root_dir(root_dir)`, tslearn/datasets/ucr_uea.py:25-33; `xdg` is the environment variable `XDG_DATA_HOME`. -/
def checkRootDir (root xdg : Option FPath) (home : FPath) : FPath :=
  match root with
  | some p => p
  | none =>
    match xdg with
    | some p => p ++ ["tslearn"]
    | none => home ++ [".tslearn", "datasets"]

/-- `cache_all()`, tslearn/datasets/ucr_uea.py:379-385: the file system afterwards and the names in the warnings, on the listed names. -/
def cacheAll {C D : Type} (env : DsEnv C D) (useCache : Bool) (fs : FS C) (names : List DsName) : FS C × List DsName :=
  names.foldl (fun s n =>
    match ucrLoad env useCache s.1 n with
    | (fs, .ok _) => (fs, s.2)
    | (fs, .error _) => (fs, s.2 ++ [n])) (fs, [])

/-- Position of the last dot of a file name, counted from the end (`none`: no dot); library (`str.rfind`). -/
def lastDot (n : List Char) : Option ℕ := n.reverse.findIdx? (· = '.')

/-- `PurePath.stem`: the name up to its last dot, unless that is its first or last character (library, `pathlib`). -/
def stemOf (n : List Char) : List Char :=
  match lastDot n with
  | none => n
  | some k => if k = 0 ∨ k + 1 = n.length then n else n.take (n.length - (k + 1))

/-- `PurePath.suffix == ".npz"`, tslearn/datasets/cached.py:43 (library, `pathlib`). -/
def hasNpz (n : List Char) : Bool := decide (n = stemOf n ++ ".npz".toList)

/-- `CachedDatasets.list_datasets()`, tslearn/datasets/cached.py:42-43, on the names of the files of the directory. -/
def cachedList (files : List (List Char)) : List (List Char) := (files.filter hasNpz).map stemOf

/-- `CachedDatasets.load_dataset(dataset_name)`, tslearn/datasets/cached.py:80-85, for a name without `/`, not empty and not `.` or `..`: the arrays of
the file `stem.npz`, in the order training series, training labels, test series, test labels. Simplified: a missing file or array is `keyError` (the
code raises `FileNotFoundError` for a file). -/
def cachedLoad {D : Type} (npz : List Char → Option (String → Option D)) (name : List Char) : Except PyErr (D × D × D × D) :=
  match npz (stemOf name ++ ".npz".toList) with
  | none => .error .keyError
  | some f =>
    match f "X_train", f "X_test", f "y_train", f "y_test" with
    | some a, some b, some c, some d => .ok (a, c, b, d)
    | _, _, _, _ => .error .keyError

/-! ## Texts -/

/-- `s.replace(old, new)` for a non-empty `old`, tslearn/datasets/datasets.py:76: from left to right, without overlaps (library). The first argument is the
number of characters still to be skipped. -/
def replaceText (old new : List Char) : ℕ → List Char → List Char
  | _, [] => []
  | k + 1, _ :: s => replaceText old new k s
  | 0, c :: s => if old.isPrefixOf (c :: s) then new ++ replaceText old new (old.length - 1) s else c :: replaceText old new 0 s

/-- `in_file_string_replace(filename, old_string, new_string)`, tslearn/datasets/datasets.py:72-77, for a non-empty `old_string`. A file that is not there
raises and nothing changes. -/
def inFileReplace (fs : FS (List Char)) (p : FPath) (old new : List Char) : FS (List Char) × Except PyErr Unit :=
  match fs.file p with
  | none => (fs, .error .runtimeError)
  | some s => ({ fs with file := fun q => if q = p then some (replaceText old new 0 s) else fs.file q }, .ok ())

/-- `str(EmptyClusterError(message))`, tslearn/clustering/utils.py:23-28. -/
def emptyClusterText (message : List Char) : List Char :=
  "Cluster assignments lead to at least one empty cluster".toList ++ (if 0 < message.length then " (".toList ++ message ++ ")".toList else [])

/-- `ts_size(ts)`, tslearn/utils/utils.py:506-508. -/
def tsSizeOf {α : Type} (ts : TsInput (Option α)) : ℕ := tsSize (toTimeSeries ts false)

end Verif
