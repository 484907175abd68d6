import Verif.Model.Dataset
/-!
Text serialisation of series and datasets, tslearn/utils/utils.py:289-419. Strings are lists of
characters. The formatting of one value (`fmt % v`) and its parsing are parameters.
-/
namespace Verif
variable {α : Type}

/-- The rows of `ts.T`: one list per feature. -/
def Ts.columns (t : Ts α) : List (List (Option α)) :=
  (List.range t.d).map fun f => t.rows.map fun r => r.getD f none

/-- `time_series_to_str(ts, fmt)`, tslearn/utils/utils.py:289-320: `numpy.savetxt` writes each row of
`ts.T` as its formatted values joined by blanks, followed by `newline="|"`; the last character is cut. -/
def timeSeriesToStr (fmt : Option α → List Char) (t : Ts α) : List Char :=
  ((t.columns.map fun col => [' '].intercalate (col.map fmt) ++ ['|']).flatten).dropLast

/-- The characters the separator `" "` of `numpy.fromstring` matches. -/
def isWs (c : Char) : Bool := c == ' ' || c == '\n' || c == '\t' || c == '\r'

/-- `numpy.fromstring(s, sep=" ")`: whitespace separated values; reading stops at the first token that
is not a number. -/
def fromString (parse : List Char → Option (Option α)) (s : List Char) : List (Option α) :=
  (((s.splitOnP isWs).filter (fun t => t ≠ [])).map parse).takeWhile Option.isSome |>.filterMap id

/-- `str_to_time_series(ts_str)`, tslearn/utils/utils.py:326-358. `numpy.transpose` of lists of
different lengths raises `ValueError`. -/
def strToTimeSeries (parse : List Char → Option (Option α)) (s : List Char) : Except PyErr (Ts α) :=
  let cols := (s.splitOn '|').map (fromString parse)
  let sz := (cols.headD []).length
  if cols.any fun c => c.length ≠ sz then .error .valueError
  else .ok ⟨cols.length, (List.range sz).map fun i => cols.map fun c => c.getD i none⟩

/-- The content of the file written by `save_time_series_txt(fname, dataset, fmt)`,
tslearn/utils/utils.py:364-387. -/
def saveTxt (fmt : Option α → List Char) (l : List (Ts α)) : List Char :=
  (l.map fun t => timeSeriesToStr fmt t ++ ['\n']).flatten

/-- `f.readlines()`: lines with their terminator. -/
def readLines : List Char → List (List Char)
  | [] => []
  | c :: s =>
    if c = '\n' then [c] :: readLines s
    else match readLines s with
      | [] => [[c]]
      | l :: ls => (c :: l) :: ls

/-- `load_time_series_txt(fname)` on the content of the file, tslearn/utils/utils.py:393-419. -/
def loadTxt (parse : List Char → Option (Option α)) (content : List Char) : Except PyErr (Arr3 α) := do
  let l ← (readLines content).mapM (strToTimeSeries parse)
  toDataset (.series l)

end Verif
