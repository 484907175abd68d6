import Verif.Model.Loop
/-!
The two traversal orders used by every alignment dynamic programme of tslearn.
-/
namespace Verif

/-- Row-major double loop over an `(l1+1) × (l2+1)` table:
`for i in range(l1): for j in range(l2): if mask[i, j]: M[i+1, j+1] = cell(i, j, M[i, j+1], M[i+1, j], M[i, j])`.
Shape of tslearn/metrics/_dtw.py:331-343 and 362-370, _frechet.py:327-348 and 361-378,
_soft_dtw.py:350-370 and 387-407, _gak.py:259-274, dtw_variants.py:403-470 and 948-1033. -/
def dpLoop {C : Type _} (l1 l2 : Nat) (mask : Nat → Nat → Bool)
    (cell : Nat → Nat → C → C → C → C) (init : Mat C) : Mat C :=
  forRange l1 init fun i M =>
    forRange l2 M fun j M =>
      if mask i j then
        M.set (i + 1) (j + 1) (cell i j (M i (j + 1)) (M (i + 1) j) (M i j))
      else M

/-- Anti-diagonal vectorised loop, tslearn/metrics/utils.py:200-230.
`i_start = max(0, k - l2 + 1)`, `i_end = min(l1 - 1, k) + 1`, `j = k - i`; all entries of a
diagonal are written at once from the previous table. `k - l2 + 1` is an integer expression, so
`max(0, k - l2 + 1)` is the truncated `k + 1 - l2`. The loop runs `l1 + l2 - 1` times. -/
def diagLoop {C : Type _} (l1 l2 : Nat)
    (cell : Nat → Nat → C → C → C → C) (init : Mat C) : Mat C :=
  forRange (l1 + l2 - 1) init fun k M =>
    let iStart := k + 1 - l2
    let iEnd := min (l1 - 1) k + 1
    fun ci cj =>
      -- is `(ci, cj)` one of the indices `(i + 1, (k - i) + 1)` with `iStart ≤ i < iEnd`?
      if 1 ≤ ci ∧ iStart ≤ ci - 1 ∧ ci - 1 < iEnd ∧ cj = (k - (ci - 1)) + 1 then
        cell (ci - 1) (cj - 1) (M (ci - 1) cj) (M ci (cj - 1)) (M (ci - 1) (cj - 1))
      else M ci cj

end Verif
