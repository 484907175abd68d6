import Verif.Props.C36
/-!
C57: the constraint parameters of `dtw_barycenter_averaging` mean what they mean for `dtw_path`. False for the constraint
names that `dtw_path` documents: `metric_params` reaches the compiled function unchanged, where no string equals an integer
code.
-/
set_option linter.unusedSectionVars false
namespace Verif
open Spec
variable {K : Type} [Field K] [LinearOrder K] [IsStrictOrderedRing K]

/-- With a constraint name, every alignment step is the unconstrained one, whatever name, radius and slope. -/
theorem C57_name_ignored (s : String) (radius : Option ℕ) (slope : Option ℚ) (tol : K) (am) (b x : List (List K)) :
    dbaPath ⟨.name s, radius, slope, tol, am⟩ b x = dbaPath ⟨.code 0, none, none, tol, am⟩ b x := by
  have : ∀ n m, computeMask n m 3 radius slope = computeMask n m 0 none none := fun n m => by simp [computeMask]
  simp [dbaPath, dtwPathGeneric, DbaGc.toCode, this]

/-- Hence so is the whole function. -/
theorem C57_name_ignored_dba (s : String) (radius : Option ℕ) (slope : Option ℚ) (tol : K) (am) (D : DsInput K)
    (size : Option ℕ) (init : Option (List (List K))) (maxIter : ℕ) (weights : Option (List K)) (nInit : ℕ) :
    dba ⟨.name s, radius, slope, tol, am⟩ D size init maxIter weights nInit =
      dba ⟨.code 0, none, none, tol, am⟩ D size init maxIter weights nInit := by
  have h1 : ∀ b : List (List K), dbaPath ⟨.name s, radius, slope, tol, am⟩ b = dbaPath ⟨.code 0, none, none, tol, am⟩ b :=
    fun b => funext fun x => C57_name_ignored s radius slope tol am b x
  have h2 : ∀ (xs : List (List (List K))) ws size d, mmRound ⟨.name s, radius, slope, tol, am⟩ xs ws size d =
      mmRound ⟨.code 0, none, none, tol, am⟩ xs ws size d := by
    intro xs ws size d
    funext b
    simp only [mmRound, mmAssignment, h1]
  unfold dba dbaOneInit dbaLoop
  simp only [h2]

/-- The claim fails: a band of radius 0 given by name is not applied. The constrained squared distance is 2, DBA aligns at
cost 0. -/
theorem C57_false : ∃ (b x : List (List ℚ)) (code : ℕ), gcCode (some "sakoe_chiba") = .ok code ∧
    dtwSqGeneric b x code (some 0) none = .ok ((2 : ℚ) : WithTop ℚ) ∧
    ∃ p, dbaPath ⟨.name "sakoe_chiba", some 0, none, 1 / 1000, argmin3⟩ b x = .ok (((0 : ℚ) : WithTop ℚ), p) :=
  ⟨[[0], [0], [1], [2]], [[0], [1], [2], [2]], 2, rfl, by decide +kernel, [(0, 0), (1, 0), (2, 1), (3, 2), (3, 3)],
    by decide +kernel⟩

/-- What holds: integer codes, or a radius or a slope alone, mean the same as for `dtw`. -/
theorem C57_partial (code : ℕ) (radius : Option ℕ) (slope : Option ℚ) (tol : K)
    (am) (ham : IsArgmin3 am) (b x : List (List K)) (hb : b ≠ []) (hx : x ≠ []) (mask : Mat Bool)
    (hm : computeMask b.length x.length code radius slope = .ok mask) :
    ∃ v p, dbaPath ⟨.code code, radius, slope, tol, am⟩ b x = .ok (v, p) ∧
      dtwSqGeneric b x code radius slope = .ok v ∧ IsWarpingPath b.length x.length p ∧
      (v ≠ ⊤ → InMask mask p ∧ v = ((sumCost (sampleCost b x) p : K) : WithTop K)) := by
  obtain ⟨v, p, h1, h2, h3, h4⟩ := dbaPath_spec ⟨.code code, radius, slope, tol, am⟩ ham b x hb hx mask hm
  obtain ⟨v', a1, a2, a3⟩ := C01_dtw_squared b x hb hx code radius slope mask hm
  refine ⟨v, p, h1, ?_, h2, fun hv => ⟨(h4 hv).1.2, (h4 hv).2.1⟩⟩
  rw [a1]
  refine congrArg Except.ok ?_
  by_cases hv : v = ⊤
  · rw [hv]; exact a2.2 (h3.1 hv)
  · obtain ⟨b1, b2, b3⟩ := h4 hv
    rw [b2]
    refine (a3 _).2 ⟨⟨p, b1, rfl⟩, ?_⟩
    rintro e ⟨q, hq, rfl⟩
    exact b3 q hq

/-- The same band by code is applied: the two calls return different barycenters. -/
example : dba ⟨.code 2, some 0, none, 1 / 1000, argmin3⟩ (dsOf 1 [[[0], [1], [2], [2]], [[0], [0], [1], [2]]]) none
      (some [[0], [0], [1], [2]]) 1 none 1 = .ok (some [[0], [1 / 2], [3 / 2], [(2 : ℚ)]]) ∧
    dba ⟨.name "sakoe_chiba", some 0, none, 1 / 1000, argmin3⟩ (dsOf 1 [[[0], [1], [2], [2]], [[0], [0], [1], [2]]]) none
      (some [[0], [0], [1], [2]]) 1 none 1 = .ok (some [[0], [0], [1], [(2 : ℚ)]]) := by
  constructor <;> decide +kernel

end Verif
