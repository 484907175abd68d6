import Verif.Model.ShapeletNet
/-!
Networks that `LearningShapelets` can have after `fit`, and the list of its shapelets.
-/
namespace Verif.Spec
variable {K : Type}

/-- Names of the layers and shapes of their weights. -/
def netSig (net : List (NetLayer K)) : List (String × List (List ℕ)) := net.map fun l => (l.name, l.weights.map Ten.shape)

/-- A network with the layers built for `sizes`, series of `d` features and `units` outputs, after any training: only entries of weights
have changed. -/
structure FittedNet (sizes : List (ℕ × ℕ)) (d units : ℕ) (net : List (NetLayer K)) : Prop where
  built : ∃ init dense bias net₀, (∀ L nb, (init L nb).shape = [nb, L, d]) ∧ dense.shape = [(sizes.map Prod.snd).sum, units] ∧ bias.shape = [units] ∧
    setModelLayers (K := K) sizes init dense bias = .ok net₀ ∧ netSig net = netSig net₀
  wf : ∀ l ∈ net, ∀ w ∈ l.weights, w.WF

/-- The shapelets in order of lengths, given the weights of the layers: those of length number `i` are the rows of `W i`. -/
def shapeletList (sizes : List (ℕ × ℕ)) (W : ℕ → Ten K) : List (Ten K) :=
  sizes.zipIdx.flatMap fun p => (List.range p.1.2).map fun k => (W p.2).row k

/-- Probabilities proportional to the exponentials of scores. -/
noncomputable def softmaxL (z : List ℝ) : List ℝ := z.map fun a => Real.exp a / (z.map Real.exp).sum

/-- Score of class `u`: the weighted sum of the features, with weights `w[k, u]`, plus `b[u]`. -/
noncomputable def linScore (units : ℕ) (w b : Ten ℝ) (feat : List ℝ) (u : ℕ) : ℝ :=
  ∑ k ∈ Finset.range feat.length, feat.getD k 0 * w.data.getD (k * units + u) 0 + b.data.getD u 0

/-- Scores of the classes; of two, the first has score 0. -/
noncomputable def classScores (n : ℕ) (w b : Ten ℝ) (feat : List ℝ) : List ℝ :=
  if n = 2 then [0, linScore 1 w b feat 0] else (List.range n).map (linScore n w b feat)

end Verif.Spec
