import Verif.Model.Datasets
import Verif.Spec.Datasets
/-!
C80: loading the UCR/UEA archive.
-/
set_option linter.unusedSectionVars false
namespace Verif
open Spec
variable {C D : Type}

theorem joinPath_simple (base : FPath) {n : String} (h : SimpleName n) : joinPath base [n] = base ++ [n] := by
  obtain ⟨h1, h2, h3⟩ := h
  simp [joinPath, resolvePath, h1, h2, h3]

theorem dsAlias_simple {n : String} (h : SimpleName n) : ∃ n', dsAlias [n] = [n'] ∧ SimpleName n' ∧ dsAlias [n'] = [n'] := by
  unfold dsAlias
  simp only [List.cons.injEq, and_true]
  split_ifs with h1 h2 h3 h4 h5 h6
  all_goals first
    | exact ⟨_, rfl, by unfold SimpleName; decide, by decide⟩
    | exact ⟨n, rfl, h, by simp [*]⟩

theorem dsAlias_idem (name : DsName) : dsAlias (dsAlias name) = dsAlias name := by
  have key : dsAlias name = name ∨ dsAlias name = ["AtrialFibrilation"] ∨ dsAlias name = ["CinCECGTorso"] ∨
      dsAlias name = ["MixedShapesRegularTrain"] ∨ dsAlias name = ["NonInvasiveFatalECGThorax1"] ∨
      dsAlias name = ["NonInvasiveFatalECGThorax2"] ∨ dsAlias name = ["StarLightCurves"] := by
    unfold dsAlias
    repeat' split
    all_goals simp only [true_or, or_true]
  rcases key with h | h | h | h | h | h | h <;> rw [h]
  · exact h
  all_goals decide

theorem simple_append {n s : String} (h : 2 < s.length) : SimpleName (n ++ s) := by
  have hl : ∀ t : String, n ++ s = t → 2 < t.length := fun t ht => by
    rw [← ht, String.length_append]; omega
  exact ⟨fun e => absurd (hl _ e) (by decide), fun e => absurd (hl _ e) (by decide), fun e => absurd (hl _ e) (by decide)⟩

theorem dsFile_simple (env : DsEnv C D) {n : String} (h : SimpleName n) (part ext : String) (hp : 2 < part.length) :
    dsFile env [n] part ext = env.dataDir ++ [n, n ++ part ++ ext] := by
  unfold dsFile nameAppend
  rw [joinPath_simple _ h]
  simp only [List.dropLast_singleton, List.nil_append, List.getLastD_cons, List.getLastD_nil]
  rw [joinPath_simple _ (simple_append (by rw [String.length_append]; omega)), List.append_assoc, List.singleton_append, String.append_assoc]

/-- An alias loads what its proper name loads. -/
theorem C80_alias (env : DsEnv C D) (c : Bool) (fs : FS C) (name : DsName) :
    ucrLoad env c fs (dsAlias name) = ucrLoad env c fs name := by
  simp only [ucrLoad, dsAlias_idem]

/-- The names of the four files that a dataset may have. -/
def dsNames (n : String) : List String := [n ++ "_TRAIN." ++ "txt", n ++ "_TEST." ++ "txt", n ++ "_TRAIN." ++ "arff", n ++ "_TEST." ++ "arff"]

theorem readFiles_simple (env : DsEnv C D) (fs : FS C) {n : String} (h : SimpleName n) (ha : dsAlias [n] = [n])
    (hd : ∀ f ∈ dsNames n, fs.dir (env.dataDir ++ [n, f]) = false) :
    readFiles env fs [n] = storedDataset env.parse (fun f => fs.file (env.dataDir ++ [n, f])) n ∧
    (hasFiles env fs [n] = true ↔ (∀ f ∈ [n ++ "_TRAIN." ++ "txt", n ++ "_TEST." ++ "txt"], (fs.file (env.dataDir ++ [n, f])).isSome) ∨
      (∀ f ∈ [n ++ "_TRAIN." ++ "arff", n ++ "_TEST." ++ "arff"], (fs.file (env.dataDir ++ [n, f])).isSome)) := by
  have d1 := hd (n ++ "_TRAIN." ++ "txt") (by simp [dsNames])
  have d2 := hd (n ++ "_TEST." ++ "txt") (by simp [dsNames])
  have d3 := hd (n ++ "_TRAIN." ++ "arff") (by simp [dsNames])
  have d4 := hd (n ++ "_TEST." ++ "arff") (by simp [dsNames])
  have e1 := dsFile_simple env h "_TRAIN." "txt" (by decide)
  have e2 := dsFile_simple env h "_TEST." "txt" (by decide)
  have e3 := dsFile_simple env h "_TRAIN." "arff" (by decide)
  have e4 := dsFile_simple env h "_TEST." "arff" (by decide)
  have ht : hasFilesExt env fs [n] "txt" = ((fs.file (env.dataDir ++ [n, n ++ "_TRAIN." ++ "txt"])).isSome &&
      (fs.file (env.dataDir ++ [n, n ++ "_TEST." ++ "txt"])).isSome) := by
    simp only [hasFilesExt, ha, e1, e2, d1, d2, Bool.or_false]
  have hr : hasFilesExt env fs [n] "arff" = ((fs.file (env.dataDir ++ [n, n ++ "_TRAIN." ++ "arff"])).isSome &&
      (fs.file (env.dataDir ++ [n, n ++ "_TEST." ++ "arff"])).isSome) := by
    simp only [hasFilesExt, ha, e3, e4, d3, d4, Bool.or_false]
  constructor
  · unfold readFiles supportedExt storedDataset
    have l1 : loadExt env fs [n] "txt" = loadExt env fs [n] "txt" := rfl
    have l2 : loadExt env fs [n] "arff" = loadExt env fs [n] "arff" := rfl
    conv_rhs at l1 => simp only [loadExt, e1, e2]
    conv_rhs at l2 => simp only [loadExt, e3, e4]
    cases a1 : fs.file (env.dataDir ++ [n, n ++ "_TRAIN." ++ "txt"]) <;>
    cases a2 : fs.file (env.dataDir ++ [n, n ++ "_TEST." ++ "txt"]) <;>
    cases a3 : fs.file (env.dataDir ++ [n, n ++ "_TRAIN." ++ "arff"]) <;>
    cases a4 : fs.file (env.dataDir ++ [n, n ++ "_TEST." ++ "arff"]) <;>
    rw [a1, a2] at ht l1 <;> rw [a3, a4] at hr l2 <;>
    simp only [Option.isSome, Bool.and_true, Bool.and_false] at ht hr <;>
    simp only [List.find?_cons, List.find?_nil, ht, hr, l1, l2, a1, a2, a3, a4, bind, Except.bind, pure, Except.pure] <;>
      (first | done | rfl | (rename_i x y; cases env.parse "txt" x <;> cases env.parse "txt" y <;> rfl) |
        (rename_i x y; cases env.parse "arff" x <;> cases env.parse "arff" y <;> rfl) |
        (rename_i x y _; cases env.parse "txt" x <;> cases env.parse "txt" y <;> rfl) |
        (rename_i x y _ _; cases env.parse "txt" x <;> cases env.parse "txt" y <;> rfl))
  · simp only [hasFiles, supportedExt, List.any_cons, List.any_nil, Bool.or_false, ht, hr, Bool.or_eq_true, Bool.and_eq_true,
      List.mem_cons, List.not_mem_nil, or_false, forall_eq_or_imp, forall_eq]

theorem clearPath_spec {fs : FS C} (h : FSOk fs) (p q : FPath) :
    (p <+: q → (clearPath fs p).file q = none ∧ (clearPath fs p).dir q = false) ∧
    (¬ p <+: q → (clearPath fs p).file q = fs.file q ∧ (clearPath fs p).dir q = fs.dir q) := by
  unfold clearPath
  cases hf : fs.file p with
  | some c =>
    have hd := h.files p (by rw [hf]; rfl)
    constructor
    · intro hpq
      by_cases e : q = p
      · subst e; simp [hd]
      · simp only [if_neg e]
        constructor
        · by_contra hne
          have := h.parents q (.inl (Option.isSome_iff_ne_none.2 hne)) p hpq (Ne.symm e)
          rw [hd] at this; cases this
        · by_contra hne
          have := h.parents q (.inr (by simpa using hne)) p hpq (Ne.symm e)
          rw [hd] at this; cases this
    · intro hpq
      have e : q ≠ p := fun e => hpq (e ▸ List.prefix_rfl)
      simp [e]
  | none =>
    cases hd : fs.dir p with
    | true =>
      simp only [if_true]
      constructor
      · intro hpq; simp [List.isPrefixOf_iff_prefix.2 hpq]
      · intro hpq
        have : p.isPrefixOf q = false := by rw [← Bool.not_eq_true, List.isPrefixOf_iff_prefix]; exact hpq
        simp [this]
    | false =>
      simp only [Bool.false_eq_true, if_false]
      refine ⟨fun hpq => ?_, fun _ => ⟨trivial, trivial⟩⟩
      by_cases e : q = p
      · subst e; exact ⟨hf, hd⟩
      · constructor
        · by_contra hne
          have := h.parents q (.inl (Option.isSome_iff_ne_none.2 hne)) p hpq (Ne.symm e)
          rw [hd] at this; cases this
        · by_contra hne
          have := h.parents q (.inr (by simpa using hne)) p hpq (Ne.symm e)
          rw [hd] at this; cases this

theorem extractAll_file (p : FPath) (files : List (FPath × C)) (fs : FS C) (q : FPath) : (extractAll fs p files).file q =
    match files.reverse.find? fun e => p ++ e.1 = q with
    | some e => some e.2
    | none => fs.file q := by
  unfold extractAll
  induction files generalizing fs with
  | nil => rfl
  | cons f files ih =>
    rw [List.foldl_cons, ih, List.reverse_cons, List.find?_append]
    cases files.reverse.find? fun e => p ++ e.1 = q with
    | some e => rfl
    | none =>
      by_cases e : p ++ f.1 = q
      · subst e; simp
      · have e' : ¬ q = p ++ f.1 := fun h => e h.symm
        simp [e, e']

theorem extractAll_dir (p : FPath) (files : List (FPath × C)) (fs : FS C) (q : FPath) : (extractAll fs p files).dir q = true ↔
    fs.dir q = true ∨ ∃ e ∈ files, q <+: p ++ e.1.dropLast := by
  unfold extractAll
  induction files generalizing fs with
  | nil => simp
  | cons f files ih =>
    rw [List.foldl_cons, ih]
    simp only [Bool.or_eq_true, List.isPrefixOf_iff_prefix, List.mem_cons, exists_eq_or_imp]
    tauto

/-- Two files of a dataset, for examples. -/
def exFS (a b : ℕ) : FS ℕ where
  file q := if q = ["d", "A", "A_TRAIN.txt"] then some a else if q = ["d", "A", "A_TEST.txt"] then some b else none
  dir q := q = [] || q = ["d"] || q = ["d", "A"]

/-- Surroundings for examples: content 0 cannot be parsed. -/
def exEnv (dl : Download ℕ) : DsEnv ℕ ℕ := ⟨["d"], fun _ => dl, fun _ c => if c = 0 then .error .valueError else .ok c, id⟩

theorem exFS_ok (a b : ℕ) : FSOk (exFS a b) := by
  constructor
  · intro q hq p hp hne
    have hq' : q = ["d", "A", "A_TRAIN.txt"] ∨ q = ["d", "A", "A_TEST.txt"] ∨ q = [] ∨ q = ["d"] ∨ q = ["d", "A"] := by
      rcases hq with h | h
      · simp only [exFS] at h
        split_ifs at h with h1 h2
        · exact .inl h1
        · exact .inr (.inl h2)
        · cases h
      · refine .inr (.inr ?_)
        simpa [exFS, or_assoc] using h
    rcases hq' with rfl | rfl | rfl | rfl | rfl <;> simp only [List.prefix_cons_iff, List.prefix_nil] at hp <;> simp [exFS] <;> aesop
  · intro p hp
    simp only [exFS] at hp ⊢
    split_ifs at hp with h1 h2
    · subst h1; decide
    · subst h2; decide
    · cases hp

theorem exFS_dir (a b : ℕ) (dl : Download ℕ) : ∀ f ∈ dsNames "A", (exFS a b).dir ((exEnv dl).dataDir ++ ["A", f]) = false := by
  simp only [dsNames, exFS, exEnv, List.cons_append, List.nil_append]
  decide

/-- A cached dataset is read from its files without touching anything, whatever the server does. -/
theorem C80_cached (env : DsEnv C D) (fs : FS C) (n n' : String) (hn : SimpleName n) (ha : dsAlias [n] = [n'])
    (hd : ∀ f ∈ dsNames n', fs.dir (env.dataDir ++ [n', f]) = false)
    (hf : (∀ f ∈ [n' ++ "_TRAIN." ++ "txt", n' ++ "_TEST." ++ "txt"], (fs.file (env.dataDir ++ [n', f])).isSome) ∨
      (∀ f ∈ [n' ++ "_TRAIN." ++ "arff", n' ++ "_TEST." ++ "arff"], (fs.file (env.dataDir ++ [n', f])).isSome)) :
    ucrLoad env true fs [n] = (fs, .ok (storedDataset env.parse (fun f => fs.file (env.dataDir ++ [n', f])) n')) := by
  obtain ⟨n'', h1, h2, h3⟩ := dsAlias_simple hn
  obtain rfl : n' = n'' := by rw [ha] at h1; simpa using h1
  obtain ⟨r1, r2⟩ := readFiles_simple env fs h2 h3 hd
  simp only [ucrLoad, ha, r2.2 hf, r1, Bool.not_true, Bool.or_self, Bool.false_eq_true, if_false]

/-- Whatever the server does, here a failing one. -/
example : ucrLoad (exEnv (.raises .runtimeError)) true (exFS 1 2) ["A"] = (exFS 1 2, .ok (some (1, 2))) :=
  C80_cached _ _ "A" "A" (by unfold SimpleName; decide) (by decide) (exFS_dir 1 2 _) (.inl (by decide))

/-- A download replaces everything below the directory of the dataset by the content of the archive and returns the dataset of the
archive; the rest of the file system stays as it is. -/
theorem C80_download (env : DsEnv C D) (c : Bool) (fs : FS C) (hfs : FSOk fs) (n n' : String) (hn : SimpleName n)
    (ha : dsAlias [n] = [n']) (files : List (FPath × C)) (hz : env.server (env.stem n' ++ ".zip") = .zip files)
    (hdl : c = false ∨ hasFiles env fs [n'] = false) (hroot : fs.dir env.dataDir = true)
    (hnd : ∀ e ∈ files, ∀ f ∈ dsNames n', ¬ [f] <+: e.1.dropLast) :
    ∃ fs', ucrLoad env c fs [n] = (fs', .ok (storedDataset env.parse (archived files) n')) ∧
      (∀ f, fs'.file (env.dataDir ++ [n', f]) = archived files f) ∧
      ∀ q, ¬ env.dataDir ++ [n'] <+: q → fs'.file q = fs.file q ∧ fs'.dir q = fs.dir q := by
  obtain ⟨n'', h1, h2, h3⟩ := dsAlias_simple hn
  obtain rfl : n' = n'' := by rw [ha] at h1; simpa using h1
  set p := env.dataDir ++ [n'] with hp
  set fs' := extractAll (mkdirs (clearPath fs p) p) p files with hfs'
  have hfile : ∀ f, fs'.file (env.dataDir ++ [n', f]) = archived files f := by
    intro f
    have e : env.dataDir ++ [n', f] = p ++ [f] := by simp [hp]
    have hc := ((clearPath_spec hfs p (p ++ [f])).1 (List.prefix_append _ _)).1
    rw [e, hfs', extractAll_file]
    simp only [List.append_cancel_left_eq, archived, mkdirs, hc]
    cases files.reverse.find? fun e => decide (e.1 = [f]) <;> rfl
  have hdir : ∀ f ∈ dsNames n', fs'.dir (env.dataDir ++ [n', f]) = false := by
    intro f hf
    have e : env.dataDir ++ [n', f] = p ++ [f] := by simp [hp]
    have hc := ((clearPath_spec hfs p (p ++ [f])).1 (List.prefix_append _ _)).2
    rw [e, ← Bool.not_eq_true, hfs', extractAll_dir]
    rintro (hm | ⟨e, he, hpre⟩)
    · simp only [mkdirs, Bool.or_eq_true, hc, Bool.false_eq_true, or_false, List.isPrefixOf_iff_prefix] at hm
      have := hm.length_le
      simp at this
      omega
    · exact hnd e he f hf ((List.prefix_append_right_inj p).1 hpre)
  obtain ⟨r1, -⟩ := readFiles_simple env fs' h2 h3 hdir
  refine ⟨fs', ?_, hfile, fun q hq => ?_⟩
  · have hcond : (!hasFiles env fs [n'] || !c) = true := by rcases hdl with h | h <;> simp [h]
    have hzn : zipName env.stem [n'] = .ok (env.stem n' ++ ".zip") := by simp [zipName, h2.1, h2.2.1]
    simp only [ucrLoad, ha, hcond, if_true, hzn, hz, joinPath_simple _ h2, ← hp, ← hfs', r1, hfile]
  · obtain ⟨c1, c2⟩ := (clearPath_spec hfs p q).2 hq
    constructor
    · rw [hfs', extractAll_file]
      have : files.reverse.find? (fun e => decide (p ++ e.1 = q)) = none := by
        rw [List.find?_eq_none]
        intro e _ he
        exact hq (by rw [← of_decide_eq_true he]; exact List.prefix_append _ _)
      rw [this]
      exact c1
    · rw [Bool.eq_iff_iff, hfs', extractAll_dir]
      simp only [mkdirs, Bool.or_eq_true, c2, List.isPrefixOf_iff_prefix]
      refine ⟨fun h => ?_, fun h => .inl (.inr h)⟩
      have hup : q <+: p → fs.dir q = true := fun hqp => by
        have hqr : q <+: env.dataDir := by
          rcases List.prefix_concat_iff.1 (hp ▸ hqp) with e | e
          · exact absurd (e ▸ List.prefix_rfl) (hp ▸ hq)
          · exact e
        by_cases e : q = env.dataDir
        · rw [e]; exact hroot
        · exact hfs.parents _ (.inr hroot) q hqr e
      rcases h with (h | h) | ⟨e, he, hpre⟩
      · exact hup h
      · exact h
      · refine hup ?_
        rcases List.prefix_or_prefix_of_prefix hpre (List.prefix_append p _) with h | h
        · exact h
        · exact absurd h hq

/-- The archive holds ARFF files; the cached text files are gone afterwards. -/
example : ∃ fs', ucrLoad (exEnv (.zip [(["A_TRAIN.arff"], 5), (["A_TEST.arff"], 6)])) false (exFS 1 2) ["A"] = (fs', .ok (some (5, 6))) ∧
    fs'.file ["d", "A", "A_TRAIN.txt"] = none := by
  obtain ⟨fs', h1, h2, -⟩ := C80_download (exEnv (.zip [(["A_TRAIN.arff"], 5), (["A_TEST.arff"], 6)])) false (exFS 1 2) (exFS_ok 1 2) "A" "A"
    (by unfold SimpleName; decide) (by decide) _ rfl (.inl rfl) (by decide) (by simp)
  exact ⟨fs', h1, h2 "A_TRAIN.txt"⟩

/-- A file that is no archive gives `None` four times. -/
theorem C80_bad (env : DsEnv C D) (c : Bool) (fs : FS C) (n n' : String) (hn : SimpleName n) (ha : dsAlias [n] = [n'])
    (hz : env.server (env.stem n' ++ ".zip") = .bad) (hdl : c = false ∨ hasFiles env fs [n'] = false) :
    (ucrLoad env c fs [n]).2 = .ok none := by
  obtain ⟨n'', h1, h2, h3⟩ := dsAlias_simple hn
  obtain rfl : n' = n'' := by rw [ha] at h1; simpa using h1
  have hcond : (!hasFiles env fs [n'] || !c) = true := by rcases hdl with h | h <;> simp [h]
  have hzn : zipName env.stem [n'] = .ok (env.stem n' ++ ".zip") := by simp [zipName, h2.1, h2.2.1]
  simp only [ucrLoad, ha, hcond, if_true, hzn, hz]

example : (ucrLoad (exEnv .bad) true (exFS 1 2) ["B"]).2 = .ok none :=
  C80_bad _ true _ "B" "B" (by unfold SimpleName; decide) (by decide) rfl (.inr (by decide))

/-- Whatever happens, no file outside the directory of the dataset is touched. -/
theorem C80_frame (env : DsEnv C D) (c : Bool) (fs : FS C) (hfs : FSOk fs) (n n' : String) (hn : SimpleName n)
    (ha : dsAlias [n] = [n']) (q : FPath) (hq : ¬ env.dataDir ++ [n'] <+: q) : (ucrLoad env c fs [n]).1.file q = fs.file q := by
  obtain ⟨n'', h1, h2, h3⟩ := dsAlias_simple hn
  obtain rfl : n' = n'' := by rw [ha] at h1; simpa using h1
  have hzn : zipName env.stem [n'] = .ok (env.stem n' ++ ".zip") := by simp [zipName, h2.1, h2.2.1]
  have hcl := ((clearPath_spec hfs (env.dataDir ++ [n']) q).2 hq).1
  simp only [ucrLoad, ha, hzn, joinPath_simple _ h2]
  split
  · split
    · exact hcl
    · exact hcl
    · rw [extractAll_file]
      rename_i files _
      have : files.reverse.find? (fun e => decide (env.dataDir ++ [n'] ++ e.1 = q)) = none := by
        rw [List.find?_eq_none]
        intro e _ he
        exact hq (by rw [← of_decide_eq_true he]; exact List.prefix_append _ _)
      rw [this]
      exact hcl
  · rfl

example : (ucrLoad (exEnv .bad) false (exFS 1 2) ["StarlightCurves"]).1.file ["d", "A", "A_TRAIN.txt"] = some 1 :=
  C80_frame (exEnv .bad) false (exFS 1 2) (exFS_ok 1 2) "StarlightCurves" "StarLightCurves" (by unfold SimpleName; decide) (by decide) _
    (by decide)

/-- What has been loaded is loaded again from the cache, whatever the server does then. -/
theorem C80_again (env env' : DsEnv C D) (he : env'.dataDir = env.dataDir) (hp : env'.parse = env.parse) (c : Bool) (fs fs' : FS C)
    (name : DsName) (r : D × D) (h : ucrLoad env c fs name = (fs', .ok (some r))) :
    ucrLoad env' true fs' name = (fs', .ok (some r)) := by
  have key : ∀ fs : FS C, readFiles env fs (dsAlias name) = some r → ucrLoad env' true fs name = (fs, .ok (some r)) := by
    intro fs hr
    have hx : ∀ ext, hasFilesExt env' fs (dsAlias name) ext = hasFilesExt env fs (dsAlias name) ext := fun ext => by
      simp only [hasFilesExt, dsFile, he]
    have hl : ∀ ext, loadExt env' fs (dsAlias name) ext = loadExt env fs (dsAlias name) ext := fun ext => by
      simp only [loadExt, dsFile, he, hp]
    have hr' : readFiles env' fs (dsAlias name) = some r := by
      rw [← hr]; unfold readFiles
      rw [show hasFilesExt env' fs (dsAlias name) = hasFilesExt env fs (dsAlias name) from funext hx]
      simp only [hl]
    have hh : hasFiles env' fs (dsAlias name) = true := by
      unfold hasFiles
      rw [show hasFilesExt env' fs (dsAlias name) = hasFilesExt env fs (dsAlias name) from funext hx, List.any_eq_true]
      unfold readFiles at hr
      cases hfd : supportedExt.find? (hasFilesExt env fs (dsAlias name)) with
      | none => rw [hfd] at hr; cases hr
      | some ext => exact ⟨ext, List.mem_of_find?_eq_some hfd, List.find?_some hfd⟩
    simp only [ucrLoad, hh, hr', Bool.not_true, Bool.or_self, Bool.false_eq_true, if_false]
  unfold ucrLoad at h
  simp only at h
  split at h
  · split at h
    · cases h
    · split at h
      · cases h
      · cases h
      · simp only [Prod.mk.injEq, Except.ok.injEq] at h
        obtain ⟨rfl, h2⟩ := h
        exact key _ h2
  · simp only [Prod.mk.injEq, Except.ok.injEq] at h
    obtain ⟨rfl, h2⟩ := h
    exact key _ h2

example : ∃ fs', ucrLoad (exEnv (.raises .runtimeError)) true fs' ["A"] = (fs', .ok (some (7, 8))) :=
  ⟨_, C80_again (exEnv (.zip [(["A_TRAIN.txt"], 7), (["A_TEST.txt"], 8)])) (exEnv (.raises .runtimeError)) rfl rfl false (exFS 1 2) _ ["A"] (7, 8) rfl⟩

/-- Without a connection the exception of the download is not turned into `None`, and the old copy of the dataset is gone: with
`use_cache=False` a failed refresh loses the cached dataset. -/
theorem C80_false_offline (env : DsEnv C D) (c : Bool) (fs : FS C) (hfs : FSOk fs) (n n' : String) (hn : SimpleName n)
    (ha : dsAlias [n] = [n']) (e : PyErr) (hz : env.server (env.stem n' ++ ".zip") = .raises e)
    (hdl : c = false ∨ hasFiles env fs [n'] = false) :
    ∃ fs', ucrLoad env c fs [n] = (fs', .error e) ∧ ∀ q, env.dataDir ++ [n'] <+: q → fs'.file q = none ∧ fs'.dir q = false := by
  obtain ⟨n'', h1, h2, h3⟩ := dsAlias_simple hn
  obtain rfl : n' = n'' := by rw [ha] at h1; simpa using h1
  have hcond : (!hasFiles env fs [n'] || !c) = true := by rcases hdl with h | h <;> simp [h]
  have hzn : zipName env.stem [n'] = .ok (env.stem n' ++ ".zip") := by simp [zipName, h2.1, h2.2.1]
  refine ⟨clearPath fs (env.dataDir ++ [n']), ?_, fun q hq => (clearPath_spec hfs _ q).1 hq⟩
  simp only [ucrLoad, ha, hcond, if_true, hzn, hz, joinPath_simple _ h2]

/-- A refresh without connection loses a cached dataset. -/
example : ∃ fs', ucrLoad (exEnv (.raises .runtimeError)) false (exFS 1 2) ["A"] = (fs', .error .runtimeError) ∧
    (exFS 1 2).file ["d", "A", "A_TRAIN.txt"] = some 1 ∧ fs'.file ["d", "A", "A_TRAIN.txt"] = none := by
  obtain ⟨fs', h1, h2⟩ := C80_false_offline (exEnv (.raises .runtimeError)) false (exFS 1 2) (exFS_ok 1 2) "A" "A"
    (by unfold SimpleName; decide) (by decide) _ rfl (.inl rfl)
  exact ⟨fs', h1, by decide, (h2 _ ⟨["A_TRAIN.txt"], rfl⟩).1⟩

/-- A dataset that does not exist is listed as cached once it has been asked for. -/
theorem C80_false_listed (env : DsEnv C D) (c : Bool) (fs : FS C) (n n' : String) (hn : SimpleName n) (ha : dsAlias [n] = [n'])
    (hi : n' ≠ "Data Descriptions") (hz : env.server (env.stem n' ++ ".zip") = .bad)
    (hdl : c = false ∨ hasFiles env fs [n'] = false) :
    (ucrLoad env c fs [n]).2 = .ok none ∧ listedCached env (ucrLoad env c fs [n]).1 n' = true := by
  refine ⟨C80_bad env c fs n n' hn ha hz hdl, ?_⟩
  obtain ⟨n'', h1, h2, h3⟩ := dsAlias_simple hn
  obtain rfl : n' = n'' := by rw [ha] at h1; simpa using h1
  have hcond : (!hasFiles env fs [n'] || !c) = true := by rcases hdl with h | h <;> simp [h]
  have hzn : zipName env.stem [n'] = .ok (env.stem n' ++ ".zip") := by simp [zipName, h2.1, h2.2.1]
  simp only [ucrLoad, ha, hcond, if_true, hzn, hz, joinPath_simple _ h2, listedCached, mkdirs]
  simp [hi, List.isPrefixOf_iff_prefix]

example : listedCached (exEnv .bad) (ucrLoad (exEnv .bad) true (exFS 1 2) ["B"]).1 "B" = true :=
  (C80_false_listed (exEnv .bad) true (exFS 1 2) "B" "B" (by unfold SimpleName; decide) (by decide) (by decide) rfl (.inr (by decide))).2

/-- A cached copy that cannot be parsed is never replaced: every later call gives `None`, whatever the server offers. -/
theorem C80_false_corrupt (env : DsEnv C D) (fs : FS C) (n n' : String) (hn : SimpleName n) (ha : dsAlias [n] = [n'])
    (hd : ∀ f ∈ dsNames n', fs.dir (env.dataDir ++ [n', f]) = false) (a b : C) (e : PyErr)
    (h1 : fs.file (env.dataDir ++ [n', n' ++ "_TRAIN." ++ "txt"]) = some a)
    (h2 : fs.file (env.dataDir ++ [n', n' ++ "_TEST." ++ "txt"]) = some b) (hp : env.parse "txt" a = .error e) :
    ucrLoad env true fs [n] = (fs, .ok none) := by
  rw [C80_cached env fs n n' hn ha hd (.inl (by simp [h1, h2]))]
  simp [storedDataset, h1, h2, hp]

/-- The server has a good copy. -/
example : ucrLoad (exEnv (.zip [(["A_TRAIN.txt"], 7), (["A_TEST.txt"], 8)])) true (exFS 0 2) ["A"] = (exFS 0 2, .ok none) :=
  C80_false_corrupt _ _ "A" "A" (by unfold SimpleName; decide) (by decide) (exFS_dir 0 2 _) 0 2 .valueError (by decide) (by decide) rfl

/-- The empty name removes the whole cache, all datasets and the summaries, and then raises. -/
theorem C80_false_empty_name (env : DsEnv C D) (c : Bool) (fs : FS C) (hfs : FSOk fs)
    (hno : ∀ ext ∈ supportedExt, fs.file (env.dataDir ++ ["_TRAIN." ++ ext]) = none ∧ fs.dir (env.dataDir ++ ["_TRAIN." ++ ext]) = false) :
    ∃ fs', ucrLoad env c fs [""] = (fs', .error .valueError) ∧ ∀ q, env.dataDir <+: q → fs'.file q = none ∧ fs'.dir q = false := by
  have ha : dsAlias [""] = [""] := by decide
  have hj : joinPath env.dataDir [""] = env.dataDir := by simp [joinPath, resolvePath]
  have hfl : hasFiles env fs [""] = false := by
    have hx : ∀ ext ∈ supportedExt, hasFilesExt env fs [""] ext = false := by
      intro ext hext
      have e : dsFile env [""] "_TRAIN." ext = env.dataDir ++ ["_TRAIN." ++ ext] := by
        unfold dsFile nameAppend
        rw [hj]
        simp only [List.dropLast_singleton, List.nil_append, List.getLastD_cons, List.getLastD_nil, String.empty_append]
        exact joinPath_simple _ (by
          simp only [supportedExt, List.mem_cons, List.not_mem_nil, or_false] at hext
          rcases hext with rfl | rfl <;> (unfold SimpleName; decide))
      simp only [hasFilesExt, ha, e, (hno ext hext).1, (hno ext hext).2]
      rfl
    rw [hasFiles, List.any_eq_false]
    intro x hxm
    rw [hx x hxm]
    decide
  refine ⟨clearPath fs env.dataDir, ?_, fun q hq => (clearPath_spec hfs _ q).1 hq⟩
  have hzn : zipName env.stem [""] = .error .valueError := by simp [zipName]
  simp only [ucrLoad, ha, hfl, Bool.not_false, Bool.true_or, if_true, hj, hzn]

example : ∃ fs', ucrLoad (exEnv .bad) true (exFS 1 2) [""] = (fs', .error .valueError) ∧ fs'.file ["d", "A", "A_TRAIN.txt"] = none := by
  obtain ⟨fs', h1, h2⟩ := C80_false_empty_name (exEnv .bad) true (exFS 1 2) (exFS_ok 1 2) (by decide)
  exact ⟨fs', h1, (h2 _ ⟨["A", "A_TRAIN.txt"], rfl⟩).1⟩

/-- The name `".."` removes the directory above the cache with everything in it. -/
theorem C80_false_parent (env : DsEnv C D) (fs : FS C) (hfs : FSOk fs) (e : PyErr) (hz : env.server (env.stem ".." ++ ".zip") = .raises e) :
    ∃ fs', ucrLoad env false fs [".."] = (fs', .error e) ∧
      ∀ q, env.dataDir.dropLast <+: q → q ≠ env.dataDir.dropLast → fs'.file q = none ∧ fs'.dir q = false := by
  have ha : dsAlias [".."] = [".."] := by decide
  have hj : joinPath env.dataDir [".."] = env.dataDir.dropLast := by simp [joinPath, resolvePath]
  refine ⟨clearPath fs env.dataDir.dropLast, ?_, fun q hq _ => (clearPath_spec hfs _ q).1 hq⟩
  have hzn : zipName env.stem [".."] = .ok (env.stem ".." ++ ".zip") := by simp [zipName]
  simp only [ucrLoad, ha, Bool.not_false, Bool.or_true, if_true, hj, hzn, hz]

example : ∃ fs', ucrLoad (exEnv (.raises .runtimeError)) false (exFS 1 2) [".."] = (fs', .error .runtimeError) ∧
    fs'.file ["d", "A", "A_TRAIN.txt"] = none := by
  obtain ⟨fs', h1, h2⟩ := C80_false_parent (exEnv (.raises .runtimeError)) (exFS 1 2) (exFS_ok 1 2) _ rfl
  exact ⟨fs', h1, (h2 _ ⟨["d", "A", "A_TRAIN.txt"], rfl⟩ (by decide)).1⟩

/-- Lists of datasets when both summaries can be downloaded: all univariate names, corrected, then all multivariate names. -/
theorem C80_lists (fix : String → String) (m u : List String) (old : UcrCsv) :
    let (o, csv) := ucrInit fix (some m) (some u) old
    listUnivariate o csv = .ok (u.map fix) ∧ listMultivariate o csv = .ok m ∧ listAll o csv = .ok (u.map fix ++ m) :=
  ⟨rfl, rfl, rfl⟩

example : listAll (ucrInit id (some ["M"]) (some ["U"]) ⟨none, none⟩).1 (ucrInit id (some ["M"]) (some ["U"]) ⟨none, none⟩).2 =
    .ok ["U", "M"] := (C80_lists id ["M"] ["U"] ⟨none, none⟩).2.2

/-- Without a connection the cached summary of multivariate datasets is used, but that of univariate datasets is not: the attribute
with its name is missing; nor is the local file with the baseline scores. -/
theorem C80_false_lists {K : Type} (fix : String → String) (du : Option (List String)) (m u : List String)
    (rows : List (String × List (String × Option K))) (ds ms : Option (List String)) :
    let (o, csv) := ucrInit fix none du ⟨some m, some u⟩
    listMultivariate o csv = .ok m ∧ csv.uni = some u ∧ listUnivariate o csv = .error .attributeError ∧
      listAll o csv = .error .attributeError ∧ baselineAccuracy o rows ds ms = .error .typeError :=
  ⟨rfl, rfl, rfl, rfl, rfl⟩

/-! ### Baseline scores -/

theorem foldl_cells {K : Type} (ok : String → Bool) (cells : List (String × Option K)) (hnd : (cells.map Prod.fst).Nodup)
    (e0 : String → Option K) (m : String) (v : K) :
    (cells.foldl (fun e c => if c.1 ≠ "" && ok c.1 then
        match c.2 with
        | some v => fun m => if m = c.1 then some v else e m
        | none => e
      else e) e0) m = some v ↔
      ((m, some v) ∈ cells ∧ m ≠ "" ∧ ok m = true) ∨
        (e0 m = some v ∧ ¬ ∃ w, (m, some w) ∈ cells ∧ m ≠ "" ∧ ok m = true) := by
  induction cells generalizing e0 with
  | nil => simp
  | cons c cells ih =>
    obtain ⟨a, o⟩ := c
    simp only [List.map_cons, List.nodup_cons] at hnd
    rw [List.foldl_cons, ih hnd.2]
    have hmem : ∀ x, (a, x) ∉ cells := fun x hx => hnd.1 (List.mem_map_of_mem (f := Prod.fst) hx)
    by_cases hm : m = a
    · subst hm
      cases o with
      | none => 
        by_cases hc : m ≠ "" ∧ ok m = true
        · simp [hmem, hc.1, hc.2]
        · simp only [hmem, false_and, exists_false, not_false_eq_true, and_true, false_or, List.mem_cons, Prod.mk.injEq, or_false]
          simp
      | some w =>
        by_cases hc : m ≠ "" ∧ ok m = true
        · simp [hmem, hc.1, hc.2, eq_comm]
        · have h1 : ¬ (m ≠ "" && ok m) = true := by simpa using hc
          simp only [hmem, exists_false, not_false_eq_true, and_true, false_or, if_neg h1, hc, and_false]
    · have hne : ∀ x, ((m, x) ∈ (a, o) :: cells ↔ (m, x) ∈ cells) := fun x => by simp [hm]
      simp only [hne]
      clear hne
      have : (if (decide (a ≠ "") && ok a) = true then
          match o with
          | some v => fun m => if m = a then some v else e0 m
          | none => e0
        else e0) m = e0 m := by
        split
        · cases o <;> simp [hm]
        · rfl
      rw [this]

/-- The scores of a requested dataset are the numbers in its row under requested methods; other datasets are absent. -/
theorem C80_baseline {K : Type} (o : UcrObj) (ho : o.baseline = true) (rows : List (String × List (String × Option K)))
    (hnd : (rows.map Prod.fst).Nodup) (hcol : ∀ r ∈ rows, (r.2.map Prod.fst).Nodup) (ds ms : Option (List String)) :
    ∃ d, baselineAccuracy o rows ds ms = .ok d ∧
      (∀ n cells, (n, cells) ∈ rows → (∀ l, ds = some l → n ∈ l) → ∃ e, d n = some e ∧ ∀ m v, e m = some v ↔
        (m, some v) ∈ cells ∧ m ≠ "" ∧ ∀ l, ms = some l → m ∈ l) ∧
      (∀ n, (∀ cells, (n, cells) ∉ rows) ∨ (∃ l, ds = some l ∧ n ∉ l) → d n = none) := by
  unfold baselineAccuracy
  rw [if_pos ho]
  refine ⟨_, rfl, ?_⟩
  have hok : ∀ (x : Option (List String)) (n : String), x.all (fun l => l.contains n) = true ↔ ∀ l, x = some l → n ∈ l := by
    intro x n
    cases x <;> simp
  have gen : ∀ d0 : String → Option (String → Option K),
      (∀ n cells, (n, cells) ∈ rows → (∀ l, ds = some l → n ∈ l) → ∃ e, (rows.foldl (fun d r =>
        if ds.all (fun l => l.contains r.1) then
          fun n => if n = r.1 then
              some (r.2.foldl (fun e c => if c.1 ≠ "" && ms.all (fun l => l.contains c.1) then
                  match c.2 with
                  | some v => fun m => if m = c.1 then some v else e m
                  | none => e
                else e) fun _ => none)
            else d n
        else d) d0) n = some e ∧ ∀ m v, e m = some v ↔ (m, some v) ∈ cells ∧ m ≠ "" ∧ ∀ l, ms = some l → m ∈ l) ∧
      (∀ n, (∀ cells, (n, cells) ∉ rows) ∨ (∃ l, ds = some l ∧ n ∉ l) → (rows.foldl (fun d r =>
        if ds.all (fun l => l.contains r.1) then
          fun n => if n = r.1 then
              some (r.2.foldl (fun e c => if c.1 ≠ "" && ms.all (fun l => l.contains c.1) then
                  match c.2 with
                  | some v => fun m => if m = c.1 then some v else e m
                  | none => e
                else e) fun _ => none)
            else d n
        else d) d0) n = d0 n) := by
    induction rows with
    | nil => intro d0; simp
    | cons r rows ih =>
      intro d0
      obtain ⟨a, cs⟩ := r
      simp only [List.map_cons, List.nodup_cons] at hnd
      have hrest : ∀ cells, (a, cells) ∉ rows := fun cells h => hnd.1 (List.mem_map_of_mem (f := Prod.fst) h)
      obtain ⟨i1, i2⟩ := ih hnd.2 (fun r hr => hcol r (List.mem_cons_of_mem _ hr)) (if ds.all (fun l => l.contains a) then
          fun n => if n = a then
              some (cs.foldl (fun e c => if c.1 ≠ "" && ms.all (fun l => l.contains c.1) then
                  match c.2 with
                  | some v => fun m => if m = c.1 then some v else e m
                  | none => e
                else e) fun _ => none)
            else d0 n
        else d0)
      constructor
      · intro n cells hmem hreq
        rw [List.foldl_cons]
        rcases List.mem_cons.1 hmem with h | h
        · simp only [Prod.mk.injEq] at h
          obtain ⟨rfl, rfl⟩ := h
          have e1 := i2 n (.inl hrest)
          rw [if_pos ((hok ds n).2 hreq), if_pos rfl] at e1
          rw [if_pos ((hok ds n).2 hreq)]
          refine ⟨_, e1, fun m v => ?_⟩
          · rw [foldl_cells (fun s => ms.all (fun l => l.contains s)) cells (hcol _ List.mem_cons_self), hok]
            simp
        · exact i1 n cells h hreq
      · intro n hn
        rw [List.foldl_cons, i2 n (hn.imp (fun h cells hc => h cells (List.mem_cons_of_mem _ hc)) id)]
        by_cases hna : n = a
        · subst hna
          have : ∃ l, ds = some l ∧ n ∉ l := hn.resolve_left fun h => h cs List.mem_cons_self
          obtain ⟨l, hl, hl'⟩ := this
          rw [if_neg]
          rw [hok]
          exact fun h => hl' (h l hl)
        · split
          · simp [hna]
          · rfl
  exact gen _

example : ∃ d, baselineAccuracy (K := ℕ) ⟨true, true, true⟩ [("A", [("", none), ("m", some 3), ("k", none)]), ("B", [("m", some 4)])]
    (some ["A"]) none = .ok d ∧ (∃ e, d "A" = some e ∧ e "m" = some 3 ∧ e "k" = none) ∧ d "B" = none := ⟨_, rfl, ⟨_, rfl, rfl, rfl⟩, rfl⟩

end Verif
