import Verif.Model.Cast
import Verif.Model.Datasets
import Mathlib.Data.Rat.Defs
/-!
The two file formats of the UCR/UEA archive, from what `numpy.loadtxt` and `scipy.io.arff.loadarff` make of a file to the arrays that
`load_dataset` returns: tslearn/utils/utils.py:624-703.
-/
namespace Verif

/-- `astype(int)` of a finite float: truncation towards zero (library). -/
def truncInt (q : ℚ) : ℤ := q.num.tdiv q.den

/-- `data[:, 0].astype(int)` for one row, tslearn/utils/utils.py:702. -/
def txtLabel (r : List (Option ℚ)) : Except PyErr ℤ :=
  match r.headD none with
  | some q => .ok (truncInt q)
  | none => .error .notModelled

/-- `_load_txt_uea`, tslearn/utils/utils.py:680-703, on the rows of a text file (of one width, `loadtxt` refuses others). `numpy.loadtxt`
drops axes of size one, so that `data[:, 1:]` needs two rows and two columns. A label that is NaN is outside of the model. -/
def loadUeaTxt (rows : List (List (Option ℚ))) : Except PyErr (Arr3 ℚ × List ℤ) :=
  if rows.length < 2 ∨ (rows.headD []).length < 2 then .error .indexError
  else do
    let X ← toDataset (.series (rows.map fun r => ⟨1, (r.drop 1).map fun v => [v]⟩))
    let y ← rows.mapM txtLabel
    return (X, y)

/-- What `loadarff` returns: records of `width` numbers with a class, or of one relational attribute, of `sz` fields, with a class. -/
inductive ArffFile (α L : Type) where
  | plain (width : ℕ) (rows : List (List (Option α) × L))
  | relational (sz : ℕ) (rows : List (List (List (Option α)) × L))

/-- `_load_arff_uea`, tslearn/utils/utils.py:624-677, with scipy present; classes are given as the strings they become. Two names are taken
for a relational attribute and a class: a column of numbers has no second axis (`IndexError`). Without rows both branches raise, instances
with different numbers of channels do not form an array. -/
def loadUeaArff {α L : Type} : ArffFile α L → Except PyErr (Arr3 α × List L)
  | .plain width rows =>
    if width = 1 then .error .indexError
    else if rows = [] then .error .valueError
    else .ok (⟨width, 1, rows.map fun r => r.1.map fun v => [v]⟩, rows.map Prod.snd)
  | .relational sz rows =>
    match rows with
    | [] => .error .indexError
    | r0 :: _ =>
      let nCh := r0.1.length
      if rows.all fun r => r.1.length = nCh then
        .ok (⟨sz, nCh, rows.map fun r => (List.range sz).map fun t => r.1.map fun ch => ch.getD t none⟩, rows.map Prod.snd)
      else .error .valueError

end Verif
