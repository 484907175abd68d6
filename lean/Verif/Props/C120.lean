import Verif.Model.Surround
import Verif.Props.C48
import Mathlib.Data.Nat.Find
import Mathlib.Tactic.Common
/-!
# C120 — around the data
-/
set_option linter.unusedSectionVars false
namespace Verif

open Spec

/-! ## Casts -/

/-- The three documented names, in any mixture of small and capital letters. -/
theorem C120_cast {C : Type} (box : Box) (hb : box ≠ .other) (c : C) (t : List Char) :
    (t.map Char.toLower = "numpy".toList → castBox box c t = .ok (.ndarray, c)) ∧
    (t.map Char.toLower = "pytorch".toList ∨ t.map Char.toLower = "torch".toList → castBox box c t = .ok (.tensor, c)) ∧
    (t.map Char.toLower = "list".toList → castBox box c t = .ok (.list, c)) := by
  refine ⟨fun h => ?_, fun h => ?_, fun h => ?_⟩
  · have e : castName t = "numpy".toList := by unfold castName; rw [h]; decide
    unfold castBox
    rw [e]
    cases box <;> first | exact absurd rfl hb | rfl
  · have e : castName t = "torch".toList := by unfold castName; rcases h with h | h <;> rw [h] <;> decide
    unfold castBox
    rw [e]
    cases box <;> first | exact absurd rfl hb | rfl
  · have e : castName t = "list".toList := by unfold castName; rw [h]; decide
    unfold castBox
    rw [e]
    cases box <;> first | exact absurd rfl hb | rfl

/-- Whatever the name, the content passes unchanged, and casting again changes nothing. -/
theorem C120_cast_twice {C : Type} (box box' : Box) (c c' : C) (t : List Char) (h : castBox box c t = .ok (box', c')) :
    c' = c ∧ castBox box' c' t = .ok (box', c') := by
  unfold castBox at h
  simp only at h
  split at h
  · rename_i h1
    cases h
    exact ⟨rfl, by unfold castBox; simp only; rw [if_pos h1]⟩
  · rename_i h1
    split at h
    · rename_i h2
      cases box <;> simp only [reduceCtorEq] at h <;> cases h <;> exact ⟨rfl, by unfold castBox; simp only; rw [h2]; rfl⟩
    · rename_i h2
      cases hb : namedBackend (castName t) <;> rw [hb] at h <;> cases h <;> refine ⟨rfl, ?_⟩ <;> unfold castBox <;> simp only <;> split <;>
        first | rfl | rw [hb]

open Classical in
/-- Any other name, unless it occurs in the text of the type: PyTorch if the name contains "torch", else NumPy. -/
theorem C120_cast_other {C : Type} (box : Box) (c : C) (t : List Char) (h1 : ¬ Occurs (castName t) box.typeText) (h2 : castName t ≠ "list".toList) :
    castBox box c t = .ok (if Occurs "torch".toList ("<class 'str'>".toList ++ castName t |>.map Char.toLower) then Box.tensor else .ndarray, c) := by
  have h1' : ¬ subText (castName t) box.typeText = true := fun h => h1 ((subText_iff _ _).1 h)
  unfold castBox namedBackend selectBackend argText
  simp only
  rw [if_neg h1', if_neg h2]
  by_cases h : subText "torch".toList (("<class 'str'>".toList ++ castName t).map Char.toLower) = true
  · rw [if_pos h, if_pos ((subText_iff _ _).1 h)]
  · rw [if_neg h, if_neg (fun h' => h ((subText_iff _ _).2 h'))]

/-- Unknown names are not refused: a tensor cast to "tensorflow" becomes a NumPy array, cast to "class" it stays a tensor. A tuple cannot become a list. -/
theorem C120_false_cast : castBox Box.tensor () "tensorflow".toList = .ok (.ndarray, ()) ∧ castBox Box.tensor () "class".toList = .ok (.tensor, ()) ∧
    castBox Box.other () "list".toList = .error .attributeError := by decide +kernel

example : castBox Box.list [1, 2] "PyTorch".toList = .ok (.tensor, [1, 2]) := (C120_cast Box.list (by decide) [1, 2] "PyTorch".toList).2.1 (.inl (by decide))

/-! ## Keras -/

/-- A choice made by the user is kept. Otherwise the first of torch, tensorflow and jax that can be imported is taken, provided that those before it are not
installed; there is no backend exactly if none is installed. The choice is kept by later calls. -/
theorem C120_keras (imp : String → ImportOutcome) :
    (∀ v, v ≠ "" → checkKeras (some v) imp = .chosen v) ∧
    (∀ env, env = none ∨ env = some "" →
      (∀ b, checkKeras env imp = .chosen b ↔ ∃ pre post, ["torch", "tensorflow", "jax"] = pre ++ b :: post ∧ imp b = .found ∧ ∀ a ∈ pre, imp a = .notFound) ∧
      (checkKeras env imp = .noBackend ↔ ∀ a ∈ ["torch", "tensorflow", "jax"], imp a = .notFound) ∧
      ∀ b imp', checkKeras env imp = .chosen b → checkKeras (some b) imp' = .chosen b) := by
  have loop : ∀ (l : List String) (b : String), kerasLoop imp l = .chosen b ↔ ∃ pre post, l = pre ++ b :: post ∧ imp b = .found ∧ ∀ a ∈ pre, imp a = .notFound := by
    intro l
    induction l with
    | nil => intro b; simp [kerasLoop]
    | cons x l ih =>
      intro b
      unfold kerasLoop
      cases hx : imp x with
      | found =>
        simp only [KerasOutcome.chosen.injEq]
        constructor
        · rintro rfl; exact ⟨[], l, rfl, hx, by simp⟩
        · rintro ⟨pre, post, h, hb, hp⟩
          cases pre with
          | nil => simp at h; exact h.1
          | cons y pre =>
            simp at h
            have := hp y (by simp)
            rw [← h.1, hx] at this
            cases this
      | notFound =>
        simp only
        rw [ih]
        constructor
        · rintro ⟨pre, post, rfl, hb, hp⟩
          exact ⟨x :: pre, post, rfl, hb, by simpa [hx] using hp⟩
        · rintro ⟨pre, post, h, hb, hp⟩
          cases pre with
          | nil =>
            simp at h
            rw [← h.1, hx] at hb
            cases hb
          | cons y pre =>
            simp at h
            exact ⟨pre, post, h.2, hb, fun a ha => hp a (by simp [ha])⟩
      | broken e =>
        simp only [reduceCtorEq, false_iff]
        rintro ⟨pre, post, h, hb, hp⟩
        cases pre with
        | nil =>
          simp at h
          rw [← h.1, hx] at hb
          cases hb
        | cons y pre =>
          simp at h
          have := hp y (by simp)
          rw [← h.1, hx] at this
          cases this
  have none' : ∀ l : List String, kerasLoop imp l = .noBackend ↔ ∀ a ∈ l, imp a = .notFound := by
    intro l
    induction l with
    | nil => simp [kerasLoop]
    | cons x l ih =>
      unfold kerasLoop
      cases hx : imp x <;> simp [hx, ih]
  have keep : ∀ v, v ≠ "" → ∀ imp', checkKeras (some v) imp' = .chosen v := fun v hv imp' => by unfold checkKeras; simp [hv]
  refine ⟨fun v hv => keep v hv imp, fun env he => ?_⟩
  have e : checkKeras env imp = kerasLoop imp ["torch", "tensorflow", "jax"] := by
    rcases he with rfl | rfl <;> simp [checkKeras]
  rw [e]
  refine ⟨fun b => loop _ b, none' _, fun b imp' hb => keep b ?_ imp'⟩
  obtain ⟨pre, post, h, -⟩ := (loop _ b).1 hb
  have hm : b ∈ ["torch", "tensorflow", "jax"] := by rw [h]; simp
  simp only [List.mem_cons, List.not_mem_nil, or_false] at hm
  rcases hm with rfl | rfl | rfl <;> decide

/-- Only TensorFlow and JAX are installed. -/
example : checkKeras none (fun b => if b = "torch" then .notFound else .found) = .chosen "tensorflow" := by decide +kernel

/-- A module that is installed but fails to load hides the later ones. -/
example : checkKeras (some "") (fun b => if b = "torch" then .broken .runtimeError else .found) = .raises .runtimeError := by decide +kernel

/-! ## Places of datasets -/

/-- The directory asked for, else the one below `XDG_DATA_HOME`, else the one below the home directory. -/
theorem C120_root (root xdg : FPath) (home : FPath) (x : Option FPath) : checkRootDir (some root) x home = root ∧
    checkRootDir none (some xdg) home = xdg ++ ["tslearn"] ∧ checkRootDir none none home = home ++ [".tslearn", "datasets"] := ⟨rfl, rfl, rfl⟩

open Classical in
/-- `cache_all` goes through all names in order, failing or not: after any of them the files are those left by its load, and it is named in a warning
exactly if its load raised. -/
theorem C120_cache_all {C D : Type} (env : DsEnv C D) (u : Bool) (fs : FS C) (pre : List DsName) (n : DsName) (post : List DsName) :
    (cacheAll env u fs (pre ++ [n])).1 = (ucrLoad env u (cacheAll env u fs pre).1 n).1 ∧
    (cacheAll env u fs (pre ++ n :: post)).2.Sublist (pre ++ n :: post) ∧
    ∃ ws, (cacheAll env u fs (pre ++ n :: post)).2 = (cacheAll env u fs pre).2 ++
      (if ∃ e, (ucrLoad env u (cacheAll env u fs pre).1 n).2 = .error e then [n] else []) ++ ws ∧ ws.Sublist post := by
  let stp : FS C × List DsName → DsName → FS C × List DsName := fun s n =>
    ((ucrLoad env u s.1 n).1, s.2 ++ (if ∃ e, (ucrLoad env u s.1 n).2 = .error e then [n] else []))
  have key : ∀ names, cacheAll env u fs names = names.foldl stp (fs, []) := by
    intro names
    unfold cacheAll
    congr 1
    funext s n
    simp only [stp]
    rcases ucrLoad env u s.1 n with ⟨f, r⟩
    cases r <;> simp
  have tail : ∀ (l : List DsName) (s : FS C × List DsName), ∃ ws, (l.foldl stp s).2 = s.2 ++ ws ∧ ws.Sublist l := by
    intro l
    induction l with
    | nil => intro s; exact ⟨[], by simp⟩
    | cons a l ih =>
      intro s
      rw [List.foldl_cons]
      obtain ⟨ws, h1, h2⟩ := ih (stp s a)
      refine ⟨(if ∃ e, (ucrLoad env u s.1 a).2 = .error e then [a] else []) ++ ws, by rw [h1, ← List.append_assoc], ?_⟩
      split
      · exact h2.cons_cons a
      · exact h2.cons a
  refine ⟨?_, ?_, ?_⟩
  · rw [key, key, List.foldl_append, List.foldl_cons, List.foldl_nil]
  · obtain ⟨ws, h1, h2⟩ := tail (pre ++ n :: post) (fs, [])
    rw [key, h1]
    exact h2
  · rw [key, key, List.foldl_append, List.foldl_cons]
    exact tail post _

/-- An archive that is not a zip file: `cache_all` is silent and nothing is cached. -/
theorem C120_false_cache_all : ∃ (env : DsEnv Unit Unit) (fs : FS Unit) (n : DsName), (cacheAll env true fs [n]).2 = [] ∧
    hasFiles env (cacheAll env true fs [n]).1 n = false :=
  ⟨⟨["d"], fun _ => .bad, fun _ _ => .ok (), id⟩, ⟨fun _ => none, fun _ => false⟩, ["Beef"], by decide +kernel, by decide +kernel⟩

/-! ## Cached datasets -/

theorem stemOf_plain {n : List Char} (h : '.' ∉ n) : stemOf n = n := by
  have : lastDot n = none := by
    unfold lastDot
    rw [List.findIdx?_eq_none_iff]
    intro x hx
    have : x ≠ '.' := fun e => h (by rw [← e]; simpa using hx)
    simpa using this
  unfold stemOf
  rw [this]

theorem stemOf_dot {n e : List Char} (hn : n ≠ []) (he : e ≠ []) (hd : '.' ∉ e) : stemOf (n ++ '.' :: e) = n := by
  have h : lastDot (n ++ '.' :: e) = some e.length := by
    unfold lastDot
    rw [List.reverse_append, List.reverse_cons, List.append_assoc, List.findIdx?_append]
    have : (e.reverse).findIdx? (· = '.') = none := by
      rw [List.findIdx?_eq_none_iff]
      intro x hx
      have : x ≠ '.' := fun e' => hd (by rw [← e']; simpa using hx)
      simpa using this
    rw [this]
    simp [List.findIdx?_cons]
  have h1 := List.length_pos_iff.2 hn
  have h2 := List.length_pos_iff.2 he
  unfold stemOf
  rw [h]
  simp only [List.length_append, List.length_cons]
  rw [if_neg (by omega), show n.length + (e.length + 1) - (e.length + 1) = n.length by omega]
  simp

/-- Every listed name without a dot loads its file; the arrays come as training series, training labels, test series, test labels; a further suffix in the
name is ignored. -/
theorem C120_cached {D : Type} (npz : List Char → Option (String → Option D)) (files : List (List Char)) (n : List Char) (hn : n ≠ []) (hd : '.' ∉ n) :
    (n ∈ cachedList files ↔ n ++ ".npz".toList ∈ files) ∧
    (∀ f a b c d, npz (n ++ ".npz".toList) = some f → f "X_train" = some a → f "y_train" = some b → f "X_test" = some c → f "y_test" = some d →
      cachedLoad npz n = .ok (a, b, c, d)) ∧
    ∀ e, e ≠ [] → '.' ∉ e → cachedLoad npz (n ++ '.' :: e) = cachedLoad npz n := by
  have hs : stemOf (n ++ ".npz".toList) = n := stemOf_dot (e := "npz".toList) hn (by decide) (by decide)
  refine ⟨?_, ?_, ?_⟩
  · unfold cachedList hasNpz
    simp only [List.mem_map, List.mem_filter, decide_eq_true_eq]
    constructor
    · rintro ⟨f, ⟨hf, e⟩, rfl⟩
      rwa [← e]
    · intro hf
      exact ⟨_, ⟨hf, by rw [hs]⟩, hs⟩
  · intro f a b c d hf ha hb hc hd'
    unfold cachedLoad
    rw [stemOf_plain hd, hf]
    simp only [ha, hb, hc, hd']
  · intro e he hde
    unfold cachedLoad
    rw [stemOf_plain hd, stemOf_dot hn he hde]

/-- A listed name with a dot is not found: `a.b` is looked for in the file `a.npz`. -/
theorem C120_false_cached : ∃ (files : List (List Char)) (npz : List Char → Option (String → Option ℕ)) (n : List Char),
    (∀ f, (npz f).isSome = true ↔ f ∈ files) ∧ n ∈ cachedList files ∧ cachedLoad npz n = .error .keyError := by
  refine ⟨["a.b.npz".toList], fun f => if f = "a.b.npz".toList then some (fun _ => some 0) else none, "a.b".toList, ?_, by decide +kernel, by decide +kernel⟩
  intro f
  by_cases h : f = "a.b.npz".toList <;> simp [h]

example : cachedLoad (fun f => if f = "Trace.npz".toList then some (fun s => some s) else none) "Trace".toList =
    .ok ("X_train", "y_train", "X_test", "y_test") := by decide +kernel

/-! ## Texts -/

theorem replaceText_skip (old new : List Char) : ∀ (k : ℕ) (a s : List Char), a.length = k → replaceText old new k (a ++ s) = replaceText old new 0 s := by
  intro k
  induction k with
  | zero => intro a s h; obtain rfl := List.length_eq_zero_iff.1 h; rfl
  | succ k ih =>
    intro a s h
    obtain ⟨x, a, rfl⟩ := List.exists_cons_of_length_eq_add_one h
    exact ih a s (by simpa using h)

theorem replaceText_hit (old new : List Char) (ho : old ≠ []) (s : List Char) : replaceText old new 0 (old ++ s) = new ++ replaceText old new 0 s := by
  obtain ⟨c, o, rfl⟩ := List.exists_cons_of_ne_nil ho
  rw [List.cons_append, replaceText, if_pos (by rw [List.isPrefixOf_iff_prefix]; exact ⟨s, by simp⟩)]
  rw [show (c :: o).length - 1 = o.length by simp, replaceText_skip _ _ _ o s rfl]

/-- `replace`: the text is cut at occurrences of `old`, from left to right, into pieces; before each cut there is no occurrence that ends earlier, none is
left in the last piece, and the result is the same pieces with `new` in between. -/
theorem C120_replace (old new : List Char) (ho : old ≠ []) (s : List Char) : ∃ (cuts : List (List Char)) (last : List Char),
    s = (cuts.map (· ++ old)).flatten ++ last ∧ replaceText old new 0 s = (cuts.map (· ++ new)).flatten ++ last ∧ ¬ Occurs old last ∧
    ∀ c ∈ cuts, ∀ a b, c ++ old = a ++ old ++ b → b = [] := by
  induction hn : s.length using Nat.strong_induction_on generalizing s with
  | _ n ih =>
    by_cases hocc : Occurs old s
    · -- the first occurrence
      have : ∃ a b, s = a ++ old ++ b ∧ ∀ a' b', s = a' ++ old ++ b' → a.length ≤ a'.length := by
        classical
        have hex : ∃ k, ∃ a b, s = a ++ old ++ b ∧ a.length = k := by
          obtain ⟨a, b, h⟩ := hocc; exact ⟨_, a, b, h, rfl⟩
        obtain ⟨a, b, h, hk⟩ := Nat.find_spec hex
        exact ⟨a, b, h, fun a' b' h' => hk ▸ Nat.find_min' hex ⟨a', b', h', rfl⟩⟩
      obtain ⟨a, b, hs, hmin⟩ := this
      have hpos := List.length_pos_iff.2 ho
      obtain ⟨cuts, last, h1, h2, h3, h4⟩ := ih b.length (by rw [← hn, hs]; simp; omega) b rfl
      have hwalk : ∀ (a1 a2 : List Char), a = a1 ++ a2 → replaceText old new 0 (a2 ++ old ++ b) = a2 ++ (new ++ replaceText old new 0 b) := by
        intro a1 a2
        induction a2 generalizing a1 with
        | nil => intro _; rw [List.nil_append, List.nil_append]; exact replaceText_hit old new ho b
        | cons x a2 iha =>
          intro ha
          rw [List.cons_append, List.cons_append, replaceText, if_neg, iha (a1 ++ [x]) (by simp [ha])]
          · rfl
          · rw [List.isPrefixOf_iff_prefix]
            rintro ⟨r, hr⟩
            have hr' : x :: (a2 ++ old ++ b) = old ++ r := hr.symm
            have := hmin a1 r (by rw [hs, ha, List.append_assoc a1 old r, ← hr']; simp)
            rw [ha] at this
            simp at this
            omega
      refine ⟨a :: cuts, last, ?_, ?_, h3, ?_⟩
      · rw [hs]
        simp only [List.map_cons, List.flatten_cons]
        rw [h1]
        simp
      · have := hwalk [] a (by simp)
        rw [hs, this]
        simp only [List.map_cons, List.flatten_cons]
        rw [h2]
        simp
      · intro c hc a' b' h'
        rcases List.mem_cons.1 hc with rfl | hc
        · have h5 := hmin a' (b' ++ b) (by rw [hs, h']; simp)
          have h6 := congrArg List.length h'
          simp at h6
          exact List.length_eq_zero_iff.1 (by omega)
        · exact h4 c hc a' b' h'
    · refine ⟨[], s, by simp, ?_, hocc, by simp⟩
      simp only [List.map_nil, List.flatten_nil, List.nil_append]
      clear ih hn
      induction s with
      | nil => rfl
      | cons x s ihs =>
        rw [replaceText, if_neg, ihs]
        · rintro ⟨a, b, h⟩; exact hocc ⟨x :: a, b, by rw [h]; simp⟩
        · rw [List.isPrefixOf_iff_prefix]
          rintro ⟨r, hr⟩
          exact hocc ⟨[], r, by simp [hr]⟩

/-- Only the named file changes; a missing file changes nothing and raises. -/
theorem C120_in_file (fs : FS (List Char)) (p : FPath) (old new : List Char) :
    ((inFileReplace fs p old new).1.file p = (fs.file p).map (replaceText old new 0)) ∧ (∀ q, q ≠ p → (inFileReplace fs p old new).1.file q = fs.file q) ∧
    (inFileReplace fs p old new).1.dir = fs.dir ∧ ((inFileReplace fs p old new).2 = .ok () ↔ (fs.file p).isSome) := by
  unfold inFileReplace
  cases h : fs.file p with
  | none => simp [h]
  | some s => exact ⟨by simp, fun q hq => by simp [hq], rfl, by simp⟩

example : replaceText "aa".toList "b".toList 0 "aaaxaa".toList = "baxb".toList := by decide +kernel

/-- The text of the error ends with the message in brackets, if there is one. -/
theorem C120_error (m : List Char) : emptyClusterText [] = "Cluster assignments lead to at least one empty cluster".toList ∧
    (m ≠ [] → emptyClusterText m = "Cluster assignments lead to at least one empty cluster (".toList ++ m ++ ")".toList) := by
  refine ⟨rfl, fun h => ?_⟩
  unfold emptyClusterText
  rw [if_pos (List.length_pos_iff.2 h), ← List.append_assoc, ← List.append_assoc]
  rfl

/-- `ts_size` is the length of what `to_time_series(remove_nans=True)` keeps. -/
theorem C120_size {α : Type} (ts : TsInput (Option α)) : tsSizeOf ts = (toTimeSeries ts true).length ∧
    toTimeSeries ts true = (toTimeSeries ts false).take (tsSizeOf ts) := by
  have h : ∀ (rows : List (List (Option α))) k, k ≤ rows.length → tsSizeLoop rows k ≤ rows.length := by
    intro rows k
    induction k with
    | zero => intro _; simp [tsSizeLoop]
    | succ k ih =>
      intro hk
      unfold tsSizeLoop
      split
      · exact ih (by omega)
      · exact hk
  have e : toTimeSeries ts true = (toTimeSeries ts false).take (tsSizeOf ts) := by cases ts <;> rfl
  refine ⟨?_, e⟩
  rw [e, List.length_take, Nat.min_eq_left]
  exact h _ _ le_rfl

end Verif
