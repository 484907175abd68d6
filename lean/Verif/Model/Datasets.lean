import Verif.Model.Py
import Mathlib.Data.Nat.Notation
import Mathlib.Tactic.Common
/-!
Loading of the UCR/UEA archive: tslearn/datasets/ucr_uea.py and datasets.py, on a file system without symbolic links. The server, the
parsers of files (C24 and library code) and the removal of the last suffix of a file name (`pathlib`) are parameters.
-/
namespace Verif

/-- An absolute path, as the list of its components (library: `pathlib`). -/
abbrev FPath := List String

/-- A file system: contents of regular files, and directories (library). -/
structure FS (C : Type) where
  file : FPath → Option C
  dir : FPath → Bool

/-- `dataset_name.split("/")`; the empty name is `[""]`, an absolute name begins with `""` and has more components (library). -/
abbrev DsName := List String

/-- `..` goes up (library, no symbolic links). -/
def resolvePath : List String → FPath → FPath
  | [], acc => acc
  | c :: cs, acc => if c = ".." then resolvePath cs acc.dropLast else resolvePath cs (acc ++ [c])

/-- `base / name` (tslearn/datasets/ucr_uea.py:294; library: `pathlib` drops `""` and `"."`, an absolute name replaces the base). -/
def joinPath (base : FPath) (name : DsName) : FPath :=
  resolvePath (name.filter fun c => c ≠ "" && c ≠ ".") (if name.head? = some "" ∧ 1 < name.length then [] else base)

/-- `dataset_name + f"_TRAIN.{ext}"` and alike, tslearn/datasets/ucr_uea.py:325, 328 and 373-374. -/
def nameAppend (name : DsName) (s : String) : DsName := name.dropLast ++ [name.getLastD "" ++ s]

/-- `SUPPORTED_EXT`, tslearn/datasets/ucr_uea.py:13. -/
def supportedExt : List String := ["txt", "arff"]

/-- `_filenames.get(dataset_name, dataset_name)`, tslearn/datasets/ucr_uea.py:113-120 and 293. -/
def dsAlias (name : DsName) : DsName :=
  if name = ["AtrialFibrillation"] then ["AtrialFibrilation"]
  else if name = ["CinCECGtorso"] then ["CinCECGTorso"]
  else if name = ["MixedShapes"] then ["MixedShapesRegularTrain"]
  else if name = ["NonInvasiveFetalECGThorax1"] then ["NonInvasiveFatalECGThorax1"]
  else if name = ["NonInvasiveFetalECGThorax2"] then ["NonInvasiveFatalECGThorax2"]
  else if name = ["StarlightCurves"] then ["StarLightCurves"]
  else name

/-- What the downloads do: `raises e` is an exception of `urlretrieve`, `bad` a file that is no zip archive, `zip` the files of the
archive with their paths inside it; tslearn/datasets/datasets.py:39-52. -/
inductive Download (C : Type)
  | raises (e : PyErr) | bad | zip (files : List (FPath × C))

/-- Surroundings of a loader: the directory `_data_dir`, the server by the name of the archive, the parser by extension and the
stem of a file name (`pathlib`). -/
structure DsEnv (C D : Type) where
  dataDir : FPath
  server : String → Download C
  parse : String → C → Except PyErr D
  stem : String → String

variable {C D : Type}

/-- The path of a file of a dataset, tslearn/datasets/ucr_uea.py:294, 324-329 and 372-375; `part` is `"_TRAIN."` or `"_TEST."`. -/
def dsFile (env : DsEnv C D) (name : DsName) (part ext : String) : FPath :=
  joinPath (joinPath env.dataDir name) (nameAppend name (part ++ ext))

/-- `_has_files(dataset_name, ext)`, tslearn/datasets/ucr_uea.py:369-375 (`exists` also holds for directories). -/
def hasFilesExt (env : DsEnv C D) (fs : FS C) (name : DsName) (ext : String) : Bool :=
  let name := dsAlias name
  let ex (p : FPath) := (fs.file p).isSome || fs.dir p
  ex (dsFile env name "_TRAIN." ext) && ex (dsFile env name "_TEST." ext)

/-- `_has_files(dataset_name)`, tslearn/datasets/ucr_uea.py:365-368. -/
def hasFiles (env : DsEnv C D) (fs : FS C) (name : DsName) : Bool := supportedExt.any (hasFilesExt env fs name)

/-- Removal of the old copy, tslearn/datasets/ucr_uea.py:299-307: a regular file is unlinked, a directory is removed with all that is
below it, nothing happens when there is neither. Simplified: a directory reached through `..` is emptied but stays itself. -/
def clearPath (fs : FS C) (p : FPath) : FS C :=
  match fs.file p with
  | some _ => { fs with file := fun q => if q = p then none else fs.file q }
  | none =>
    if fs.dir p then
      { file := fun q => if p.isPrefixOf q then none else fs.file q, dir := fun q => if p.isPrefixOf q then false else fs.dir q }
    else fs

/-- `target_dir.mkdir(parents=True, exist_ok=True)`, tslearn/datasets/datasets.py:41. -/
def mkdirs (fs : FS C) (p : FPath) : FS C := { fs with dir := fun q => q.isPrefixOf p || fs.dir q }

/-- `f.extractall(path=target_dir)`, tslearn/datasets/datasets.py:43-44 (library): files are written below the directory, with their
parents; a later entry replaces an earlier one. Simplified: an archive found to be corrupt in the middle is `bad` from the start. -/
def extractAll (fs : FS C) (p : FPath) (files : List (FPath × C)) : FS C :=
  files.foldl (fun fs f =>
    { file := fun q => if q = p ++ f.1 then some f.2 else fs.file q,
      dir := fun q => (q.isPrefixOf (p ++ f.1.dropLast)) || fs.dir q }) fs

/-- `Path(dataset_name).with_suffix(".zip").name`, tslearn/datasets/ucr_uea.py:309: `ValueError` for an empty name. -/
def zipName (stem : String → String) (name : DsName) : Except PyErr String :=
  match (name.filter fun c => c ≠ "" && c ≠ ".").getLast? with
  | none => .error .valueError
  | some c => .ok (stem c ++ ".zip")

/-- One pass of the loop over the formats, tslearn/datasets/ucr_uea.py:321-330; a directory in place of a file cannot be read. -/
def loadExt (env : DsEnv C D) (fs : FS C) (name : DsName) (ext : String) : Except PyErr (D × D) := do
  let rd (p : FPath) : Except PyErr D :=
    match fs.file p with
    | some c => env.parse ext c
    | none => .error .runtimeError
  let tr ← rd (dsFile env name "_TRAIN." ext)
  let te ← rd (dsFile env name "_TEST." ext)
  return (tr, te)

/-- Second half of `load_dataset`, tslearn/datasets/ucr_uea.py:317-344: the first format with both files; `none` stands for
`(None, None, None, None)`, also when parsing raises. -/
def readFiles (env : DsEnv C D) (fs : FS C) (name : DsName) : Option (D × D) :=
  match supportedExt.find? (hasFilesExt env fs name) with
  | none => none
  | some ext =>
    match loadExt env fs name ext with
    | .ok r => some r
    | .error _ => none

/-- `load_dataset(dataset_name)`, tslearn/datasets/ucr_uea.py:293-344, with `extract_from_zip_url`,
tslearn/datasets/datasets.py:17-54: the file system afterwards and the outcome. -/
def ucrLoad (env : DsEnv C D) (useCache : Bool) (fs : FS C) (name : DsName) : FS C × Except PyErr (Option (D × D)) :=
  let name := dsAlias name
  let full := joinPath env.dataDir name
  if !hasFiles env fs name || !useCache then
    let fs := clearPath fs full
    match zipName env.stem name with
    | .error e => (fs, .error e)
    | .ok z =>
      match env.server z with
      | .raises e => (fs, .error e)
      | .bad => (mkdirs fs full, .ok none)
      | .zip files =>
        let fs := extractAll (mkdirs fs full) full files
        (fs, .ok (readFiles env fs name))
  else (fs, .ok (readFiles env fs name))

/-- `n in list_cached_datasets()`, tslearn/datasets/ucr_uea.py:110 and 247-248. -/
def listedCached (env : DsEnv C D) (fs : FS C) (n : String) : Bool := fs.dir (env.dataDir ++ [n]) && n != "Data Descriptions"

/-- Attributes that the constructor may set, tslearn/datasets/ucr_uea.py:83-108: whether `_list_multivariate_filename` and
`_list_univariate_filename` exist, and whether `_baseline_scores_filename` is a path. -/
structure UcrObj where
  multi : Bool
  uni : Bool
  baseline : Bool
  deriving DecidableEq

/-- The two summaries that the loader keeps, as lists of names (`none`: no such file). -/
structure UcrCsv where
  multi : Option (List String)
  uni : Option (List String)
  deriving DecidableEq

/-- `__init__`, tslearn/datasets/ucr_uea.py:83-108: each file name is set just before its download, and an exception skips the rest.
`dm` and `du` are the downloaded summaries (`none`: the download raises); the two names that the summary of univariate datasets
misspells are replaced (inside longer names as well: `fix`). -/
def ucrInit (fix : String → String) (dm du : Option (List String)) (old : UcrCsv) : UcrObj × UcrCsv :=
  match dm with
  | none => (⟨true, false, false⟩, old)
  | some m =>
    match du with
    | none => (⟨true, true, false⟩, { old with multi := some m })
    | some u => (⟨true, true, true⟩, ⟨some m, some (u.map fix)⟩)

/-- `list_univariate_datasets()`, tslearn/datasets/ucr_uea.py:189-193; `FileNotFoundError` is `fileExists` here. -/
def listUnivariate (o : UcrObj) (csv : UcrCsv) : Except PyErr (List String) :=
  if o.uni then
    match csv.uni with
    | some l => .ok l
    | none => .error .fileExists
  else .error .attributeError

/-- `list_multivariate_datasets()`, tslearn/datasets/ucr_uea.py:209-213. -/
def listMultivariate (o : UcrObj) (csv : UcrCsv) : Except PyErr (List String) :=
  if o.multi then
    match csv.multi with
    | some l => .ok l
    | none => .error .fileExists
  else .error .attributeError

/-- `list_datasets()`, tslearn/datasets/ucr_uea.py:234-235. -/
def listAll (o : UcrObj) (csv : UcrCsv) : Except PyErr (List String) := do
  let u ← listUnivariate o csv
  let m ← listMultivariate o csv
  return u ++ m

/-- `baseline_accuracy(list_datasets, list_methods)`, tslearn/datasets/ucr_uea.py:161-173: `rows` are the rows of the local file, a
cell that is no number is `none`; `open(None)` is a `TypeError`. The result is the dictionary as a function. -/
def baselineAccuracy {K : Type} (o : UcrObj) (rows : List (String × List (String × Option K))) (ds ms : Option (List String)) :
    Except PyErr (String → Option (String → Option K)) :=
  if o.baseline then
    .ok (rows.foldl (fun d r =>
      if ds.all (fun l => l.contains r.1) then
        fun n => if n = r.1 then
            some (r.2.foldl (fun e c =>
              if c.1 ≠ "" && ms.all (fun l => l.contains c.1) then
                match c.2 with
                | some v => fun m => if m = c.1 then some v else e m
                | none => e
              else e) fun _ => none)
          else d n
      else d) fun _ => none)
  else .error .typeError

end Verif
