import Verif.Model.Text
import Verif.Props.C23
/-!
# C24 — text serialisation round-trips
-/
namespace Verif
open Spec
variable {α : Type}

/-- A format that can be read back: every value, NaN included, is printed as a non-empty token without
separators, and parsed back to itself. -/
structure RoundTrips (fmt : Option α → List Char) (parse : List Char → Option (Option α)) : Prop where
  parse_fmt : ∀ v, parse (fmt v) = some v
  nonempty : ∀ v, fmt v ≠ []
  clean : ∀ v, ∀ c ∈ fmt v, c ≠ ' ' ∧ c ≠ '|' ∧ c ≠ '\n' ∧ c ≠ '\t' ∧ c ≠ '\r'

variable {fmt : Option α → List Char} {parse : List Char → Option (Option α)}

theorem splitOnP_tokens (toks : List (List Char)) (h1 : ∀ t ∈ toks, t ≠ []) (h2 : ∀ t ∈ toks, ∀ c ∈ t, isWs c = false)
    (tail : List Char) (ht : tail = [] ∨ tail = ['\n']) :
    (([' '].intercalate toks ++ tail).splitOnP isWs).filter (fun t => t ≠ []) = toks := by
  induction toks with
  | nil =>
    rcases ht with rfl | rfl
    · simp
    · simp [List.splitOnP_cons_eq_if_modifyHead, isWs]
  | cons t toks ih =>
    have ht1 := h1 t (by simp)
    have ht2 := h2 t (by simp)
    cases toks with
    | nil =>
      have e : ([' '].intercalate [t]) = t := by simp [List.intercalate]
      rw [e]
      rcases ht with rfl | rfl
      · rw [List.append_nil, List.splitOnP_eq_singleton ht2]; simp [ht1]
      · rw [List.splitOnP_append_cons_of_forall_mem ht2 '\n' (by simp [isWs])]; simp [ht1]
    | cons u toks =>
      have e : [' '].intercalate (t :: u :: toks) ++ tail = t ++ ' ' :: ([' '].intercalate (u :: toks) ++ tail) := by
        simp [List.intercalate, List.intersperse]
      rw [e, List.splitOnP_append_cons_of_forall_mem ht2 ' ' (by simp [isWs])]
      have := ih (fun t ht => h1 t (by simp [ht])) (fun t ht => h2 t (by simp [ht]))
      rw [List.filter_cons_of_pos (by simpa using ht1), this]

theorem fromString_fmt (h : RoundTrips fmt parse) (col : List (Option α)) (tail : List Char)
    (ht : tail = [] ∨ tail = ['\n']) : fromString parse ([' '].intercalate (col.map fmt) ++ tail) = col := by
  unfold fromString
  rw [splitOnP_tokens _ _ _ _ ht]
  · simp only [List.map_map]
    have e : (col.map (parse ∘ fmt)) = col.map some := List.map_congr_left fun v _ => h.parse_fmt v
    have e2 : (col.map some).takeWhile Option.isSome = col.map some := by
      induction col with
      | nil => rfl
      | cons a l ih => simp [ih (List.map_congr_left fun v _ => h.parse_fmt v)]
    rw [e, e2]
    simp
  · intro t ht
    obtain ⟨v, -, rfl⟩ := List.mem_map.1 ht
    exact h.nonempty v
  · intro t ht c hc
    obtain ⟨v, -, rfl⟩ := List.mem_map.1 ht
    obtain ⟨h1, h2, h3, h4, h5⟩ := h.clean v c hc
    simp [isWs, h1, h3, h4, h5]

theorem intercalate_bar (cols : List (List Char)) (hne : cols ≠ []) :
    ((cols.map fun c => c ++ ['|']).flatten).dropLast = ['|'].intercalate cols := by
  induction cols with
  | nil => exact absurd rfl hne
  | cons c cols ih =>
    cases cols with
    | nil => simp [List.intercalate]
    | cons d cols =>
      have := ih (by simp)
      rw [List.map_cons, List.flatten_cons, List.dropLast_append_of_ne_nil (by simp), this]
      simp [List.intercalate, List.intersperse]

theorem mem_intercalate {β : Type} {sep : List β} {ls : List (List β)} {c : β} (h : c ∈ sep.intercalate ls) :
    c ∈ sep ∨ ∃ l ∈ ls, c ∈ l := by
  induction ls with
  | nil => simp [List.intercalate] at h
  | cons l ls ih =>
    cases ls with
    | nil => simp [List.intercalate] at h; exact .inr ⟨l, by simp, h⟩
    | cons l' ls =>
      have e : sep.intercalate (l :: l' :: ls) = l ++ (sep ++ sep.intercalate (l' :: ls)) := by
        simp [List.intercalate, List.intersperse]
      rw [e, List.mem_append, List.mem_append] at h
      rcases h with h | h | h
      · exact .inr ⟨l, by simp, h⟩
      · exact .inl h
      · rcases ih h with h | ⟨x, hx, hc⟩
        · exact .inl h
        · exact .inr ⟨x, by simp [hx], hc⟩

theorem colStr_clean (h : RoundTrips fmt parse) (col : List (Option α)) :
    ∀ c ∈ [' '].intercalate (col.map fmt), c ≠ '|' ∧ c ≠ '\n' := by
  intro c hc
  rcases mem_intercalate hc with h1 | ⟨l, hl, h1⟩
  · simp at h1; subst h1; simp
  · obtain ⟨v, -, rfl⟩ := List.mem_map.1 hl
    obtain ⟨-, h2, h3, -⟩ := h.clean v c h1
    exact ⟨h2, h3⟩

theorem timeSeriesToStr_eq (fmt : Option α → List Char) (t : Ts α) (hd : 0 < t.d) :
    timeSeriesToStr fmt t = ['|'].intercalate (t.columns.map fun col => [' '].intercalate (col.map fmt)) := by
  unfold timeSeriesToStr
  rw [← intercalate_bar]
  · simp [List.map_map, Function.comp_def]
  · intro h0
    have := congrArg List.length h0
    simp [Ts.columns] at this
    omega

theorem columns_rows (t : Ts α) (hw : t.WF) :
    ((List.range t.rows.length).map fun i => t.columns.map fun c => c.getD i none) = t.rows := by
  apply List.ext_getElem
  · simp
  · intro i h1 h2
    simp only [List.getElem_map, List.getElem_range, Ts.columns, List.map_map]
    have hl := hw t.rows[i] (List.getElem_mem _)
    apply List.ext_getElem
    · simp [hl]
    · intro f h3 h4
      simp [List.getD_eq_getElem?_getD, List.getElem?_eq_getElem h2, List.getElem?_eq_getElem h4]

theorem strToTimeSeries_line (h : RoundTrips fmt parse) (t : Ts α) (hw : t.WF) (hd : 0 < t.d)
    (tail : List Char) (ht : tail = [] ∨ tail = ['\n']) :
    strToTimeSeries parse (timeSeriesToStr fmt t ++ tail) = .ok t := by
  have hcols : ((timeSeriesToStr fmt t ++ tail).splitOn '|').map (fromString parse) = t.columns := by
    rw [timeSeriesToStr_eq fmt t hd]
    obtain ⟨init, last, hil⟩ : ∃ init last, t.columns = init ++ [last] := by
      have : t.columns ≠ [] := by
        intro h0; have := congrArg List.length h0; simp [Ts.columns] at this; omega
      exact ⟨_, _, (List.dropLast_append_getLast this).symm⟩
    rw [hil]
    have e : ['|'].intercalate ((init ++ [last]).map fun col => [' '].intercalate (col.map fmt)) ++ tail =
        ['|'].intercalate ((init.map fun col => [' '].intercalate (col.map fmt)) ++
          [[' '].intercalate (last.map fmt) ++ tail]) := by
      rw [List.map_append]
      generalize (init.map fun col => [' '].intercalate (col.map fmt)) = ls
      induction ls with
      | nil => simp [List.intercalate]
      | cons l ls ih =>
        cases ls with
        | nil => simp [List.intercalate, List.intersperse]
        | cons l' ls =>
          simp only [List.cons_append] at ih ⊢
          have e1 : ∀ (a b : List Char) (r : List (List Char)), ['|'].intercalate (a :: b :: r) =
              a ++ ('|' :: ['|'].intercalate (b :: r)) := by
            intro a b r; simp [List.intercalate, List.intersperse]
          rw [e1, e1, List.append_assoc, List.cons_append, ih]
    rw [e, List.splitOn_intercalate]
    · simp only [List.map_append, List.map_map, List.map_cons, List.map_nil]
      congr 1
      · conv_rhs => rw [← List.map_id init]
        refine List.map_congr_left fun col _ => ?_
        have := fromString_fmt h col [] (.inl rfl)
        simpa using this
      · rw [fromString_fmt h last tail ht]
    · intro l hl hbar
      rcases List.mem_append.1 hl with hl | hl
      · obtain ⟨col, -, rfl⟩ := List.mem_map.1 hl
        exact (colStr_clean h col _ hbar).1 rfl
      · rw [List.mem_singleton] at hl
        subst hl
        rcases List.mem_append.1 hbar with hb | hb
        · exact (colStr_clean h last _ hb).1 rfl
        · rcases ht with rfl | rfl <;> simp at hb
    · simp
  unfold strToTimeSeries
  simp only [hcols]
  have hlen : ∀ c ∈ t.columns, c.length = t.rows.length := by
    intro c hc
    simp only [Ts.columns, List.mem_map] at hc
    obtain ⟨f, -, rfl⟩ := hc
    simp
  have hne : t.columns ≠ [] := by
    intro h0; have := congrArg List.length h0; simp [Ts.columns] at this; omega
  have hh : (t.columns.headD []).length = t.rows.length := by
    cases hc : t.columns with
    | nil => exact absurd hc hne
    | cons a l => exact hlen a (by simp [hc])
  rw [hh]
  have hany : (t.columns.any fun c => decide (c.length ≠ t.rows.length)) = false := by
    simp only [List.any_eq_false, decide_eq_true_eq, not_not]
    exact hlen
  simp only [hany, Bool.false_eq_true, if_false, columns_rows t hw]
  simp [Ts.columns]

/-- `str_to_time_series(time_series_to_str(x)) = x`, for any number of timestamps and any positive
number of features. -/
theorem C24_series (h : RoundTrips fmt parse) (t : Ts α) (hw : t.WF) (hd : 0 < t.d) :
    strToTimeSeries parse (timeSeriesToStr fmt t) = .ok t := by
  simpa using strToTimeSeries_line h t hw hd [] (.inl rfl)

/-- Text whose features have different numbers of values is refused, wherever the odd one stands. -/
theorem C24_ragged (h : RoundTrips fmt parse) (cols : List (List (Option α))) (c c' : List (Option α)) (hc : c ∈ cols) (hc' : c' ∈ cols)
    (hne : c.length ≠ c'.length) :
    strToTimeSeries parse (['|'].intercalate (cols.map fun col => [' '].intercalate (col.map fmt))) = .error .valueError := by
  have hcols : ((['|'].intercalate (cols.map fun col => [' '].intercalate (col.map fmt))).splitOn '|').map (fromString parse) = cols := by
    rw [List.splitOn_intercalate]
    · rw [List.map_map]
      conv_rhs => rw [← List.map_id cols]
      refine List.map_congr_left fun col _ => ?_
      have := fromString_fmt h col [] (.inl rfl)
      simpa using this
    · intro l hl hbar
      obtain ⟨col, -, rfl⟩ := List.mem_map.1 hl
      exact (colStr_clean h col _ hbar).1 rfl
    · intro h0
      rw [List.map_eq_nil_iff] at h0
      rw [h0] at hc; cases hc
  unfold strToTimeSeries
  simp only [hcols]
  rw [if_pos]
  rw [List.any_eq_true]
  by_cases h1 : c.length = (cols.headD []).length
  · exact ⟨c', hc', by simpa using fun h2 => hne (h1.trans (by simpa using h2.symm))⟩
  · exact ⟨c, hc, by simpa using h1⟩

theorem readLines_append (l s : List Char) (hl : '\n' ∉ l) :
    readLines (l ++ '\n' :: s) = (l ++ ['\n']) :: readLines s := by
  induction l with
  | nil => simp [readLines]
  | cons c l ih =>
    simp only [List.mem_cons, not_or] at hl
    rw [List.cons_append, readLines, if_neg (fun e => hl.1 e.symm), ih hl.2]
    rfl

theorem timeSeriesToStr_no_newline (h : RoundTrips fmt parse) (t : Ts α) (hd : 0 < t.d) :
    '\n' ∉ timeSeriesToStr fmt t := by
  rw [timeSeriesToStr_eq fmt t hd]
  intro hc
  rcases mem_intercalate hc with h1 | ⟨l, hl, h1⟩
  · simp at h1
  · obtain ⟨col, -, rfl⟩ := List.mem_map.1 hl
    exact (colStr_clean h col _ h1).2 rfl

theorem load_lines (h : RoundTrips fmt parse) (l : List (Ts α)) (hw : ∀ t ∈ l, t.WF ∧ 0 < t.d) :
    (readLines (saveTxt fmt l)).mapM (strToTimeSeries parse) = .ok l := by
  induction l with
  | nil => rfl
  | cons t l ih =>
    obtain ⟨hw1, hd⟩ := hw t (by simp)
    have e : saveTxt fmt (t :: l) = timeSeriesToStr fmt t ++ '\n' :: saveTxt fmt l := by simp [saveTxt]
    rw [e, readLines_append _ _ (timeSeriesToStr_no_newline h t hd), List.mapM_cons,
      strToTimeSeries_line h t hw1 hd _ (.inr rfl), ih fun t ht => hw t (by simp [ht])]
    rfl

/-- A list of series written to a file and read back is the formatted dataset of these series. -/
theorem C24_dataset (h : RoundTrips fmt parse) (l : List (Ts α)) (hw : ∀ t ∈ l, t.WF ∧ 0 < t.d) :
    loadTxt parse (saveTxt fmt l) = toDataset (.series l) := by
  unfold loadTxt
  rw [load_lines h l hw]
  rfl

/-- A dataset formatted by `to_time_series_dataset`, written to a file and read back, is unchanged. -/
theorem C24_formatted (h : RoundTrips fmt parse) (l : List (Ts α)) (d : ℕ) (hd : 0 < d)
    (hw : ∀ t ∈ l, t.WF ∧ t.d = d) (X : Arr3 α) (hX : toDataset (.series l) = .ok X) :
    loadTxt parse (saveTxt fmt X.slots) = .ok X := by
  rw [C24_dataset h X.slots]
  · exact C23_idempotent l d hw X hX
  · intro t ht
    match l with
    | [] => cases hX; simp [Arr3.slots] at ht
    | t0 :: l =>
      obtain ⟨X', h', hXw, hXd, -⟩ := C23_content (t0 :: l) d (by simp) hw
      rw [hX] at h'
      cases h'
      simp only [Arr3.slots, List.mem_map] at ht
      obtain ⟨rows, hr, rfl⟩ := ht
      exact ⟨(hXw rows hr).2, by simpa [hXd] using hd⟩

/-- A toy format on bits: `1`, `0`, `nan`. -/
def bitFmt : Option Bool → List Char
  | none => ['n', 'a', 'n']
  | some true => ['1']
  | some false => ['0']

/-- Its parser. -/
def bitParse (s : List Char) : Option (Option Bool) :=
  if s = ['n', 'a', 'n'] then some none else if s = ['1'] then some (some true)
  else if s = ['0'] then some (some false) else none

/-- Non-vacuity: the format round-trips, and the text of a bivariate dataset with a padded series. -/
example : RoundTrips bitFmt bitParse ∧
    saveTxt bitFmt [⟨2, [[some true, none], [some false, some true]]⟩, ⟨2, [[some true, some true], [none, none]]⟩] =
      "1 0|nan 1\n1 nan|1 nan\n".toList := by
  refine ⟨⟨?_, ?_, ?_⟩, by decide⟩
  · rintro (_ | _ | _) <;> decide
  · rintro (_ | _ | _) <;> decide
  · rintro (_ | _ | _) <;> decide

/-- Non-vacuity of the refusal: two values of the first feature, one of the second. -/
example : strToTimeSeries bitParse "1 0|1".toList = .error .valueError :=
  C24_ragged (fmt := bitFmt) ⟨by rintro (_ | _ | _) <;> decide, by rintro (_ | _ | _) <;> decide, by rintro (_ | _ | _) <;> decide⟩
    [[some true, some false], [some true]] [some true, some false] [some true] (by decide) (by decide) (by decide)

end Verif
