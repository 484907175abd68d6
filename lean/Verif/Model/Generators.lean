import Verif.Model.Py
import Mathlib.Algebra.Ring.Defs
/-!
`tslearn.generators`: random walks from a stream of normal draws.
-/
namespace Verif
variable {K : Type} [Ring K]

/-- Entry of `rs.randn(n_ts, sz, d)` (C order) for a generator whose next draws are `z`. -/
def randn (sz d : ℕ) (z : ℕ → K) (i t f : ℕ) : K := z ((i * sz + t) * d + f)

/-- The loop of `random_walks`, tslearn/generators/generators.py:51-53. -/
def walkLoop (rnd : ℕ → ℕ → ℕ → K) (i : ℕ) : ℕ → ℕ → K
  | 0, f => rnd i 0 f
  | t + 1, f => walkLoop rnd i t f + rnd i (t + 1) f

/-- `random_walks(n_ts, sz, d, mu, std, random_state)`, tslearn/generators/generators.py:7-54: the walks, and how many draws were made (before the
error, too). `ts[:, 0, :]` of an empty axis is an `IndexError`. -/
def randomWalks (n sz d : ℕ) (mu std : K) (z : ℕ → K) : ℕ × Except PyErr (ℕ → ℕ → ℕ → K) :=
  (n * sz * d, if sz = 0 then .error .indexError else .ok (walkLoop fun i t f => randn sz d z i t f * std + mu))

/-- `random_walk_blobs(n_ts_per_blob, sz, d, n_blobs, noise_level, random_state)`, tslearn/generators/generators.py:57-112: series and labels.
`numpy.repeat(a, repeats=r, axis=0)[i]` is `a[i // r]`. -/
def randomWalkBlobs (nPer sz d nBlobs : ℕ) (noise : K) (z : ℕ → K) : Except PyErr ((ℕ → ℕ → ℕ → K) × List ℕ) :=
  match randomWalks nBlobs sz d 0 1 z with
  | (_, .error e) => .error e
  | (used, .ok base) =>
    let rnd := fun i t f => randn sz d (fun k => z (used + k)) i t f * noise
    .ok (fun i t f => base (i / nPer) t f + rnd i t f, (List.range nBlobs).flatMap fun b => List.replicate nPer b)

end Verif
