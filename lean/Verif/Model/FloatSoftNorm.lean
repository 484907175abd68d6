import Verif.Model.FloatSoft
/-!
Normalised soft-DTW of the NumPy backend, tslearn/metrics/_soft_dtw.py, in floating-point arithmetic with a limited range.
-/
namespace Verif
noncomputable section
open Classical
namespace Arith
variable (A : Arith)

/-- `soft_dtw_normalized(s1, s2, gamma, ...)`, tslearn/metrics/_soft_dtw.py:201-346, for `gamma` other than 0 (for 0 it is the
square of `dtw`). -/
def softDtwNormalized (s1 s2 : TsInput (Option ℝ)) (γ : ℝ) (gc : Option String) (radius : Option ℕ) (slope : Option ℚ) :
    Except PyErr Fl := do
  let (x1, x2, code) ← validatePair s1 s2 gc
  if γ = 0 then throw .notModelled
  A.softNormalizedGeneric x1 x2 γ code radius slope

/-- `cdist_soft_dtw(dataset1, dataset2, gamma, ...)`, tslearn/metrics/_soft_dtw.py:738-940, for `gamma` other than 0. -/
def cdistSoft (X : DsInput ℝ) (Y : Option (DsInput ℝ)) (γ : ℝ) (gc : Option String) (radius : Option ℕ) (slope : Option ℚ)
    (run : List (Except PyErr Fl) → Except PyErr (List Fl)) : Except PyErr (Mat Fl) := do
  let code ← gcCode gc
  if γ = 0 then throw .notModelled
  cdistOf (fun x y => A.softGeneric x y γ code radius slope) (Fl.num 0) true X Y run

/-- Self value of a slot, tslearn/metrics/_soft_dtw.py:1162-1173 and 1175-1182. -/
def softSelfF (γ : ℝ) (code : ℕ) (radius : Option ℕ) (slope : Option ℚ) (t : Ts ℝ) : Except PyErr Fl :=
  onSlots (fun x y => A.softGeneric x y γ code radius slope) t t

/-- `normalizer`, one entry, tslearn/metrics/_soft_dtw.py:1151 and 1191: `-0.5 * (p + q)`. -/
def normalizer (p q : Fl) : Fl := A.mul (.num (-(1 / 2))) (A.add p q)

/-- `cdist_soft_dtw_normalized(dataset1, dataset2, gamma, ...)`, tslearn/metrics/_soft_dtw.py:943-1193, for `gamma` other than 0 and
`n_jobs` None or 1 in the loops over self values (lines 1161-1172). -/
def cdistSoftNormalized (X : DsInput ℝ) (Y : Option (DsInput ℝ)) (γ : ℝ) (gc : Option String) (radius : Option ℕ)
    (slope : Option ℚ) (run : List (Except PyErr Fl) → Except PyErr (List Fl)) : Except PyErr (Mat Fl) := do
  let cd ← A.cdistSoft X Y γ gc radius slope run
  match Y with
  | none => return fun i j => A.add (cd i j) (A.normalizer (cd i i) (cd j j))
  | some Y =>
    let X ← toDataset X
    let Y ← toDataset Y
    let code ← gcCode gc
    let s1 ← seqRun (X.slots.map (A.softSelfF γ code radius slope))
    let s2 ← seqRun (Y.slots.map (A.softSelfF γ code radius slope))
    return fun i j => A.add (cd i j) (A.normalizer (s1.getD i (Fl.num 0)) (s2.getD j (Fl.num 0)))

end Arith
end
end Verif
