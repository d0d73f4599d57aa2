import Verif.Props.Files

/-!
# C207, C208: the cleaning functions and the files of a data directory

C207: `clean_data_fission` and `clean_data_scatter` never touch what they read, can be killed at any point and simply be
called again, and write exactly their rows under the documented names;
C208: cleaning with `splits` is not all or nothing, and can leave files of an earlier run.
-/

set_option linter.unusedSectionVars false
set_option linter.unusedSimpArgs false

namespace Discrete1.Props

open Finset Discrete1.Ml Discrete1.Tools Discrete1.MultiGroup Discrete1.Critical Discrete1.Files

section

variable {V : Type}

/-- A save determines the file, whatever the disk was. -/
theorem lookup_saves (l : List (Name × V)) (m : Name) (h : m ∈ l.map Prod.fst) :
    ∃ v, (m, v) ∈ l ∧ ∀ d : Disk V, (run (saves l) d).lookup m = some (.whole v) := by
  induction l with
  | nil => cases h
  | cons a l ih =>
    by_cases hm : m ∈ l.map Prod.fst
    · obtain ⟨v, hv, hd⟩ := ih hm
      refine ⟨v, List.mem_cons_of_mem _ hv, fun d => ?_⟩
      show (run (save a.1 a.2 ++ saves l) d).lookup m = _
      rw [run_append, hd]
    · have he : m = a.1 := by
        rcases List.mem_cons.mp h with h | h
        · exact h
        · exact absurd h hm
      refine ⟨a.2, by rw [he]; exact List.mem_cons_self, fun d => ?_⟩
      show (run (save a.1 a.2 ++ saves l) d).lookup m = _
      rw [run_append, run_untouched _ _ (saves_untouched l m hm), he]
      exact lookup_put_self _ _ _

/-- A list of saves that is interrupted anywhere and started again ends like an undisturbed one. -/
theorem saves_restart (l : List (Name × V)) (k : ℕ) (d : Disk V) (m : Name) :
    (run (saves l) (run ((saves l).take k) d)).lookup m = (run (saves l) d).lookup m := by
  by_cases hm : m ∈ l.map Prod.fst
  · obtain ⟨v, _, hd⟩ := lookup_saves l m hm
    rw [hd, hd]
  · rw [run_untouched _ _ (saves_untouched l m hm), run_untouched _ _ (saves_untouched l m hm),
      run_untouched _ _ fun s hs => saves_untouched l m hm s (List.mem_of_mem_take hs)]

theorem scatterFiles_put (path : Name) (d : Disk V) (n : Name) (f : File V)
    (hn : globMatch (path ++ "flux_scatter_model".toList) ".npy".toList n = false) :
    scatterFiles path (put d n f) = scatterFiles path d := by
  unfold scatterFiles
  congr 1
  simp only [put, List.map_cons, List.filter_cons, hn, Bool.false_eq_true, if_false]
  induction d with
  | nil => rfl
  | cons e d ih =>
    by_cases he : e.1 = n
    · simp only [List.filter_cons, he, ne_eq, not_true_eq_false, decide_false, Bool.false_eq_true, if_false,
        List.map_cons, hn]
      exact ih
    · simp only [List.filter_cons, he, ne_eq, not_false_eq_true, decide_true, if_true, List.map_cons]
      split_ifs
      · rw [ih]
      · exact ih

theorem scatterFiles_run (path : Name) (l : List (Name × V)) (k : ℕ) (d : Disk V)
    (h : ∀ m ∈ l.map Prod.fst, globMatch (path ++ "flux_scatter_model".toList) ".npy".toList m = false) :
    scatterFiles path (run ((saves l).take k) d) = scatterFiles path d := by
  have key : ∀ (steps : Steps V), (∀ s ∈ steps, ∀ d : Disk V, scatterFiles path (s d) = scatterFiles path d) →
      ∀ d : Disk V, scatterFiles path (run steps d) = scatterFiles path d := by
    intro steps
    induction steps with
    | nil => intro _ d; rfl
    | cons s steps ih =>
      intro hs d
      show scatterFiles path (run steps (s d)) = _
      rw [ih (fun s h => hs s (List.mem_cons_of_mem _ h)), hs s List.mem_cons_self]
  refine key _ (fun s hs => ?_) d
  replace hs := List.mem_of_mem_take hs
  clear d
  induction l with
  | nil => cases hs
  | cons a l ih =>
    rcases List.mem_append.mp hs with hs | hs
    · have ha := h a.1 (by simp)
      simp only [save, List.mem_cons, List.not_mem_nil, or_false] at hs
      rcases hs with rfl | rfl <;> exact fun d => scatterFiles_put path d _ _ ha
    · exact ih (fun m hm => h m (List.mem_cons_of_mem _ hm)) hs

end

section

variable {K : Type} [Field K] [LinearOrder K]

/-! ### Names -/

/-- The names the cleaning functions may write. -/
def Written (path m : Name) : Prop :=
  ∃ (scatter : Bool) (s : Name), m = path ++ (kindName scatter ++ s ++ "_training_data.npy".toList)

theorem written_glob {path m : Name} (h : Written path m) :
    globMatch (path ++ "flux_scatter_model".toList) ".npy".toList m = false := by
  obtain ⟨scatter, s, rfl⟩ := h
  rw [globMatch, isPrefixOf_append, List.append_assoc]
  cases scatter <;> simp [kindName, List.isPrefixOf]

theorem written_ne {path m : Name} (h : Written path m) (s : String)
    (hs : ("_training_data.npy".toList).isSuffixOf (s.toList ++ ".npy".toList) = false) : named path s ≠ m := by
  obtain ⟨scatter, t, rfl⟩ := h
  intro he
  have h1 := List.append_cancel_left he
  rw [h1] at hs
  have : ("_training_data.npy".toList).isSuffixOf (kindName scatter ++ t ++ "_training_data.npy".toList) = true := by
    rw [List.isSuffixOf_iff_suffix]
    exact List.suffix_append _ _
  rw [this] at hs
  cases hs

/-- What the splits select: the files of the splits that have rows. -/
def splitList (path : Name) (scatter : Bool) (rows : List (Row K)) (splits : List (Name × List K)) :
    List (Name × NpArray K) :=
  splits.filterMap fun s =>
    let sel := rows.filter fun r => decide (r.label ∈ s.2)
    if sel.length = 0 then none else some (splitName path scatter s.1, .training sel)

theorem splitLoop_eq (path : Name) (scatter : Bool) (rows : List (Row K)) (splits : List (Name × List K)) :
    (splitLoop path scatter rows splits).1 = saves (splitList path scatter rows splits) := by
  induction splits with
  | nil => rfl
  | cons s splits ih =>
    obtain ⟨name, labels⟩ := s
    simp only [splitLoop, splitList, List.filterMap_cons]
    split_ifs
    · exact ih
    · simp only [saves]
      rw [ih]
      rfl

/-- Everything a call writes is a list of saves under such names. -/
theorem cleanCall_saves (path : Name) (scatter : Bool) (splits : Option (List (Name × List K))) (nLabels : ℕ)
    (labels : ℕ → K) (d : Disk (NpArray K)) :
    ∃ l, (cleanCall path scatter splits nLabels labels d).1 = saves l ∧ ∀ m ∈ l.map Prod.fst, Written path m := by
  unfold cleanCall
  split
  · exact ⟨[], rfl, by simp⟩
  · rename_i rows _
    cases splits with
    | none =>
      refine ⟨[(trainingName path scatter, .training rows)], by simp [saves], ?_⟩
      simp only [List.map_cons, List.map_nil, List.mem_singleton]
      rintro m rfl
      exact ⟨scatter, [], by simp [trainingName]⟩
    | some splits =>
      refine ⟨_, splitLoop_eq path scatter rows splits, ?_⟩
      intro m hm
      obtain ⟨e, he, rfl⟩ := List.mem_map.mp hm
      simp only [splitList, List.mem_filterMap] at he
      obtain ⟨s, _, hs⟩ := he
      split_ifs at hs
      obtain rfl := Option.some.inj hs
      exact ⟨scatter, '_' :: s.1, rfl⟩

theorem load_congr {d d' : Disk (NpArray K)} {n : Name} (h : d'.lookup n = d.lookup n) : load d' n = load d n := by
  unfold load; rw [h]

theorem scatterLoop_congr (xs map : NpArray K) (width nLabels : ℕ) (labels : ℕ → K) (d d' : Disk (NpArray K))
    (files : List Name) (data : List (Row K)) (h : ∀ f ∈ files, load d' f = load d f) :
    scatterLoop xs map width nLabels labels d' files data = scatterLoop xs map width nLabels labels d files data := by
  induction files generalizing data with
  | nil => rfl
  | cons f files ih =>
    simp only [scatterLoop]
    rw [h f List.mem_cons_self]
    have ih' := fun data => ih data fun f hf => h f (List.mem_cons_of_mem _ hf)
    simp only [ih']

/-- Rows depend on the input files only. -/
theorem rows_congr (path : Name) (nLabels : ℕ) (labels : ℕ → K) (d d' : Disk (NpArray K))
    (hl : ∀ m, ¬ Written path m → d'.lookup m = d.lookup m) (hf : scatterFiles path d' = scatterFiles path d) :
    fissionRows path nLabels labels d' = fissionRows path nLabels labels d ∧
      scatterRows path nLabels labels d' = scatterRows path nLabels labels d := by
  have hn : ∀ s : String, ("_training_data.npy".toList).isSuffixOf (s.toList ++ ".npy".toList) = false →
      load d' (named path s) = load d (named path s) := fun s hs =>
    load_congr (hl _ fun h => written_ne h s hs rfl)
  constructor
  · unfold fissionRows
    rw [hn _ (by decide), hn _ (by decide), hn _ (by decide)]
  · unfold scatterRows
    simp only [hf]
    rw [hn _ (by decide), hn _ (by decide)]
    have : ∀ f ∈ scatterFiles path d, load d' f = load d f := fun f hf => load_congr (hl _ fun h => by
      simp only [scatterFiles, List.mem_mergeSort, List.mem_filter] at hf
      rw [written_glob h] at hf
      exact absurd hf.2 (by simp))
    simp only [scatterLoop_congr _ _ _ _ _ d d' _ _ this]

/-- C207: at any point of a cleaning call, wherever it is killed, everything that is not a training file is as before,
and every later cleaning call (of either kind, with any splits and labels) does and returns exactly what it would have
done before: the inputs are never harmed. -/
theorem C207_inputs_safe (path : Name) (scatter : Bool) (splits : Option (List (Name × List K))) (nLabels : ℕ)
    (labels : ℕ → K) (d : Disk (NpArray K)) (k : ℕ) :
    let d' := run ((cleanCall path scatter splits nLabels labels d).1.take k) d
    (∀ m, (∀ (kind : String) (s : Name), kind = "fission" ∨ kind = "scatter" →
        m ≠ path ++ (kind.toList ++ s ++ "_training_data.npy".toList)) → d'.lookup m = d.lookup m) ∧
      ∀ scatter' splits' nLabels' labels',
        cleanCall path scatter' splits' nLabels' labels' d' = cleanCall path scatter' splits' nLabels' labels' d := by
  intro d'
  obtain ⟨l, hl, hw⟩ := cleanCall_saves path scatter splits nLabels labels d
  have h1 : ∀ m, ¬ Written path m → d'.lookup m = d.lookup m := by
    intro m hm
    show (run _ d).lookup m = _
    rw [hl]
    exact run_untouched _ _ (fun s hs => saves_untouched l m (fun h => hm (hw m h)) s (List.mem_of_mem_take hs)) d
  have h2 : scatterFiles path d' = scatterFiles path d := by
    show scatterFiles path (run _ d) = _
    rw [hl]
    exact scatterFiles_run path l k d fun m hm => written_glob (hw m hm)
  refine ⟨fun m hm => h1 m ?_, fun scatter' splits' nLabels' labels' => ?_⟩
  · rintro ⟨sc, s, rfl⟩
    cases sc
    · exact hm "fission" s (Or.inl rfl) rfl
    · exact hm "scatter" s (Or.inr rfl) rfl
  · obtain ⟨h3, h4⟩ := rows_congr path nLabels' labels' d d' h1 h2
    unfold cleanCall
    rw [h3, h4]

/-- C207: a cleaning call that is killed anywhere can simply be repeated: every file is then as after one undisturbed
call, and the repetition returns what that call would have returned. -/
theorem C207_restart (path : Name) (scatter : Bool) (splits : Option (List (Name × List K))) (nLabels : ℕ)
    (labels : ℕ → K) (d : Disk (NpArray K)) (k : ℕ) :
    let call := cleanCall path scatter splits nLabels labels d
    let d' := run (call.1.take k) d
    let again := cleanCall path scatter splits nLabels labels d'
    again.2 = call.2 ∧ ∀ m, (run again.1 d').lookup m = (run call.1 d).lookup m := by
  intro call d' again
  have h : again = call := (C207_inputs_safe path scatter splits nLabels labels d k).2 scatter splits nLabels labels
  obtain ⟨l, hl, _⟩ := cleanCall_saves path scatter splits nLabels labels d
  refine ⟨by rw [h], fun m => ?_⟩
  rw [h]
  show (run call.1 (run (call.1.take k) d)).lookup m = _
  rw [show call.1 = saves l from hl]
  exact saves_restart l k d m

/-- C207: without splits one file is written, under the documented name, and it holds the rows; no other file changes. -/
theorem C207_one_file (path : Name) (scatter : Bool) (nLabels : ℕ) (labels : ℕ → K) (d : Disk (NpArray K))
    (rows : List (Row K))
    (h : (if scatter then scatterRows path nLabels labels d else fissionRows path nLabels labels d) = .ok rows) :
    let file := path ++ (if scatter then "scatter_training_data.npy" else "fission_training_data.npy").toList
    let d' := run (cleanCall path scatter none nLabels labels d).1 d
    (cleanCall path scatter none nLabels labels d).2 = .ok () ∧ load d' file = .ok (.training rows) ∧
      ∀ m, m ≠ file → d'.lookup m = d.lookup m := by
  intro file d'
  have hf : file = trainingName path scatter := by cases scatter <;> rfl
  have hc : cleanCall path scatter none nLabels labels d = (saves [(file, .training rows)], .ok ()) := by
    unfold cleanCall; rw [h, hf]; simp [saves]
  refine ⟨by rw [hc], ?_, fun m hm => ?_⟩
  · show load (run _ d) file = _
    rw [hc]
    exact load_after_save [] [] file (.training rows) (by simp) d
  · show (run _ d).lookup m = _
    rw [hc]
    exact run_untouched _ _ (saves_untouched _ m (by simpa using hm)) d

/-- C207: with splits of different names, every split that has rows gets its file, under the documented name, with exactly
its rows in order; no other file changes (whether the call ends well or with the assertion). -/
theorem C207_split_files (path : Name) (scatter : Bool) (splits : List (Name × List K)) (nLabels : ℕ) (labels : ℕ → K)
    (d : Disk (NpArray K)) (rows : List (Row K))
    (h : (if scatter then scatterRows path nLabels labels d else fissionRows path nLabels labels d) = .ok rows)
    (hnd : (splits.map Prod.fst).Nodup) :
    let file := fun name : Name =>
      path ++ ((if scatter then "scatter_" else "fission_").toList ++ name ++ "_training_data.npy".toList)
    let d' := run (cleanCall path scatter (some splits) nLabels labels d).1 d
    (∀ s ∈ splits, (∃ r ∈ rows, r.label ∈ s.2) →
        load d' (file s.1) = .ok (.training (rows.filter fun r => decide (r.label ∈ s.2)))) ∧
      ∀ m, (∀ s ∈ splits, (∃ r ∈ rows, r.label ∈ s.2) → m ≠ file s.1) → d'.lookup m = d.lookup m := by
  intro file d'
  have hf : ∀ name, file name = splitName path scatter name := by
    intro name
    cases scatter <;> simp [file, splitName, kindName]
  have hc : (cleanCall path scatter (some splits) nLabels labels d).1 = saves (splitList path scatter rows splits) := by
    unfold cleanCall; rw [h]; exact splitLoop_eq path scatter rows splits
  have hmem : ∀ (m : Name) (v : NpArray K), (m, v) ∈ splitList path scatter rows splits ↔ ∃ s ∈ splits,
      (∃ r ∈ rows, r.label ∈ s.2) ∧ m = file s.1 ∧ v = .training (rows.filter fun r => decide (r.label ∈ s.2)) := by
    intro m v
    simp only [splitList, List.mem_filterMap]
    refine exists_congr fun s => and_congr_right fun _ => ?_
    have hz : (rows.filter fun r => decide (r.label ∈ s.2)).length = 0 ↔ ¬ ∃ r ∈ rows, r.label ∈ s.2 := by
      rw [List.length_eq_zero_iff, List.filter_eq_nil_iff]
      simp
    split_ifs with h0
    · constructor
      · intro hh; cases hh
      · rintro ⟨hr, _⟩; exact absurd hr (hz.mp h0)
    · rw [hz, not_not] at h0
      simp only [Option.some.injEq, Prod.mk.injEq, h0, true_and, hf]
      exact ⟨fun hh => ⟨hh.1.symm, hh.2.symm⟩, fun hh => ⟨hh.1.symm, hh.2.symm⟩⟩
  have hinj : ∀ a b : Name, file a = file b → a = b := by
    intro a b hab
    have h1 := List.append_cancel_left hab
    rw [List.append_assoc, List.append_assoc] at h1
    exact List.append_cancel_right (List.append_cancel_left h1)
  constructor
  · intro s hs hr
    have hin : file s.1 ∈ (splitList path scatter rows splits).map Prod.fst :=
      List.mem_map.mpr ⟨(file s.1, _), (hmem _ _).mpr ⟨s, hs, hr, rfl, rfl⟩, rfl⟩
    obtain ⟨v, hv, hd⟩ := lookup_saves _ _ hin
    obtain ⟨s', hs', _, hn, rfl⟩ := (hmem _ _).mp hv
    have : s' = s := by
      have hn := (hinj _ _ hn).symm
      exact (List.inj_on_of_nodup_map hnd) hs' hs hn
    subst this
    show load (run _ d) _ = _
    rw [hc]
    unfold load
    rw [hd]
  · intro m hm
    show (run _ d).lookup m = _
    rw [hc]
    refine run_untouched _ _ (saves_untouched _ m fun hin => ?_) d
    obtain ⟨e, he, rfl⟩ := List.mem_map.mp hin
    obtain ⟨s, hs, hr, hn, _⟩ := (hmem e.1 e.2).mp he
    exact hm s hs hr hn

/-- C208 (what holds): with splits that share no label the call ends well exactly when every row belongs to a split. -/
theorem C208_success (path : Name) (scatter : Bool) (splits : List (Name × List K)) (nLabels : ℕ) (labels : ℕ → K)
    (d : Disk (NpArray K)) (rows : List (Row K))
    (h : (if scatter then scatterRows path nLabels labels d else fissionRows path nLabels labels d) = .ok rows)
    (hdis : splits.Pairwise fun a b => ∀ x ∈ a.2, x ∉ b.2) :
    (cleanCall path scatter (some splits) nLabels labels d).2 = .ok () ↔
      ∀ r ∈ rows, ∃ s ∈ splits, r.label ∈ s.2 := by
  have hcount : (splitLoop path scatter rows splits).2
      = (rows.filter fun r => decide (∃ s ∈ splits, r.label ∈ s.2)).length := by
    clear h
    induction splits with
    | nil => simp [splitLoop]
    | cons s splits ih =>
      rw [List.pairwise_cons] at hdis
      obtain ⟨name, labs⟩ := s
      have e1 : (splitLoop path scatter rows ((name, labs) :: splits)).2
          = (rows.filter fun r => decide (r.label ∈ labs)).length + (splitLoop path scatter rows splits).2 := by
        simp only [splitLoop]
        split_ifs with h0
        · rw [h0, zero_add]
        · rfl
      rw [e1, ih hdis.2]
      clear e1 ih
      induction rows with
      | nil => rfl
      | cons r rows ih =>
        have hx : r.label ∈ labs → ¬ ∃ s ∈ splits, r.label ∈ s.2 := by
          rintro hr ⟨s, hs, hrs⟩
          exact hdis.1 s hs _ hr hrs
        have hor : (∃ s ∈ (name, labs) :: splits, r.label ∈ s.2) ↔ r.label ∈ labs ∨ ∃ s ∈ splits, r.label ∈ s.2 := by
          simp
        simp only [List.filter_cons, decide_eq_true_eq, hor]
        by_cases h1 : r.label ∈ labs
        · simp only [h1, true_or, if_true, hx h1, if_false, List.length_cons]
          omega
        · by_cases h2 : ∃ s ∈ splits, r.label ∈ s.2
          · simp only [h1, false_or, h2, if_true, if_false, List.length_cons]
            omega
          · simp only [h1, false_or, h2, if_false]
            exact ih
  have hc : (cleanCall path scatter (some splits) nLabels labels d).2
      = if (splitLoop path scatter rows splits).2 = rows.length then .ok () else .error .assertion := by
    unfold cleanCall; rw [h]
  rw [hc, hcount]
  have : (rows.filter fun r => decide (∃ s ∈ splits, r.label ∈ s.2)).length = rows.length ↔
      ∀ r ∈ rows, ∃ s ∈ splits, r.label ∈ s.2 := by
    rw [List.length_filter_eq_length_iff]
    simp
  rw [← this]
  by_cases h0 : (rows.filter fun r => decide (∃ s ∈ splits, r.label ∈ s.2)).length = rows.length
  · simp [h0]
  · simp [h0]

/-- C208 is violated (all or nothing): whenever some row belongs to no split, the call ends with AssertionError, but the
files of all splits that have rows are already there, complete and loadable, without those rows. -/
theorem C208_violation_assertion (path : Name) (scatter : Bool) (splits : List (Name × List K)) (nLabels : ℕ)
    (labels : ℕ → K) (d : Disk (NpArray K)) (rows : List (Row K))
    (h : (if scatter then scatterRows path nLabels labels d else fissionRows path nLabels labels d) = .ok rows)
    (hnd : (splits.map Prod.fst).Nodup) (hdis : splits.Pairwise fun a b => ∀ x ∈ a.2, x ∉ b.2)
    (r : Row K) (hr : r ∈ rows) (hno : ∀ s ∈ splits, r.label ∉ s.2) :
    (cleanCall path scatter (some splits) nLabels labels d).2 = .error .assertion ∧
      ∀ s ∈ splits, (∃ r ∈ rows, r.label ∈ s.2) →
        load (run (cleanCall path scatter (some splits) nLabels labels d).1 d)
            (path ++ ((if scatter then "scatter_" else "fission_").toList ++ s.1 ++ "_training_data.npy".toList))
          = .ok (.training (rows.filter fun r => decide (r.label ∈ s.2))) := by
  refine ⟨?_, (C207_split_files path scatter splits nLabels labels d rows h hnd).1⟩
  have hs := C208_success path scatter splits nLabels labels d rows h hdis
  have hc : (cleanCall path scatter (some splits) nLabels labels d).2
      = if (splitLoop path scatter rows splits).2 = rows.length then .ok () else .error .assertion := by
    unfold cleanCall; rw [h]
  rw [hc] at hs ⊢
  split_ifs at hs ⊢ with h0
  · obtain ⟨s, hs', hl⟩ := hs.mp rfl r hr
    exact absurd hl (hno s hs')
  · rfl

/-- C208 is violated (stale files): a split without rows in the new data is skipped; if an earlier run has left its file,
the call ends well and the file still holds the rows of the earlier run. -/
theorem C208_violation_stale (path : Name) (scatter : Bool) (splits : List (Name × List K)) (nLabels : ℕ)
    (labels : ℕ → K) (d : Disk (NpArray K)) (rows old : List (Row K))
    (h : (if scatter then scatterRows path nLabels labels d else fissionRows path nLabels labels d) = .ok rows)
    (hnd : (splits.map Prod.fst).Nodup) (s : Name × List K) (hs : s ∈ splits) (hno : ∀ r ∈ rows, r.label ∉ s.2)
    (hold : load d (path ++ ((if scatter then "scatter_" else "fission_").toList ++ s.1 ++ "_training_data.npy".toList))
      = .ok (.training old)) :
    load (run (cleanCall path scatter (some splits) nLabels labels d).1 d)
        (path ++ ((if scatter then "scatter_" else "fission_").toList ++ s.1 ++ "_training_data.npy".toList))
      = .ok (.training old) := by
  rw [← hold]
  refine load_congr ((C207_split_files path scatter splits nLabels labels d rows h hnd).2 _ fun s' hs' hr he => ?_)
  have h1 := List.append_cancel_left he
  rw [List.append_assoc, List.append_assoc] at h1
  have h2 := List.append_cancel_right (List.append_cancel_left h1)
  have : s = s' := (List.inj_on_of_nodup_map hnd) hs hs' h2
  subst this
  obtain ⟨r, hr, hl⟩ := hr
  exact hno r hr hl

end

/-! ### A concrete directory: one iteration, two cells with labels 3 and 4, one group -/

/-- The files a collecting run has left (fission part), and a stale training file. -/
def exDir : Disk (NpArray ℚ) :=
  [("a/flux_fission_model.npy".toList, .whole (.flux 1 2 1 fun _ i _ => (i : ℚ) + 1)),
    ("a/fission_cross_sections.npy".toList, .whole (.xs 1 1 1 fun _ _ _ => 2)),
    ("a/medium_map.npy".toList, .whole (.map 2 fun _ => 0)),
    ("a/fission_old_training_data.npy".toList, .whole (.training []))]

theorem exDir_rows : ∃ r₁ r₂ : Row ℚ, fissionRows "a/".toList 2 (fun i => (i : ℚ) + 3) exDir = .ok [r₁, r₂] ∧
    r₁.label = 3 ∧ r₂.label = 4 := by
  have h : (fissionRows "a/".toList 2 (fun i => (i : ℚ) + 3) exDir).toOption.map (·.map (·.label)) = some [3, 4] := by
    decide +kernel
  rcases hr : fissionRows "a/".toList 2 (fun i => (i : ℚ) + 3) exDir with e | rows
  · rw [hr] at h; cases h
  · rw [hr] at h
    have h := Option.some.inj h
    obtain _ | ⟨r₁, _ | ⟨r₂, _ | ⟨r₃, rows⟩⟩⟩ := rows
    · simp at h
    · simp at h
    · simp only [List.map_cons, List.map_nil, List.cons.injEq, and_true] at h
      exact ⟨r₁, r₂, rfl, h.1, h.2⟩
    · simp at h

example : ∃ rows, fissionRows "a/".toList 2 (fun i => (i : ℚ) + 3) exDir = .ok rows ∧
    (cleanCall "a/".toList false none 2 (fun i => (i : ℚ) + 3) exDir).2 = .ok () := by
  obtain ⟨r₁, r₂, h, _⟩ := exDir_rows
  exact ⟨_, h, (C207_one_file "a/".toList false 2 (fun i => (i : ℚ) + 3) exDir _ (by simpa using h)).1⟩

/-- The label 4 is forgotten in the splits: the file of label 3 is written, the call raises. -/
example : (cleanCall "a/".toList false (some [("u".toList, [3])]) 2 (fun i => (i : ℚ) + 3) exDir).2 = .error .assertion := by
  obtain ⟨r₁, r₂, h, h1, h2⟩ := exDir_rows
  exact (C208_violation_assertion "a/".toList false [("u".toList, [3])] 2 (fun i => (i : ℚ) + 3) exDir [r₁, r₂]
    (by simpa using h) (by simp) (by simp) r₂ (by simp) (by simp [h2])).1

/-- Both labels are there, the split `old` has none: its file stays. -/
example : (cleanCall "a/".toList false (some [("u".toList, [3, 4]), ("old".toList, [5])]) 2 (fun i => (i : ℚ) + 3) exDir).2
      = .ok () ∧
    load (run (cleanCall "a/".toList false (some [("u".toList, [3, 4]), ("old".toList, [5])]) 2 (fun i => (i : ℚ) + 3)
      exDir).1 exDir) "a/fission_old_training_data.npy".toList = .ok (.training []) := by
  obtain ⟨r₁, r₂, h, h1, h2⟩ := exDir_rows
  refine ⟨(C208_success "a/".toList false [("u".toList, [3, 4]), ("old".toList, [5])] 2 (fun i => (i : ℚ) + 3) exDir
    [r₁, r₂] (by simpa using h) (by simp)).mpr (by simp [h1, h2]), ?_⟩
  exact C208_violation_stale "a/".toList false [("u".toList, [3, 4]), ("old".toList, [5])] 2 (fun i => (i : ℚ) + 3) exDir
    [r₁, r₂] [] (by simpa using h) (by decide) ("old".toList, [5]) (by simp) (by simp [h1, h2]) rfl

end Discrete1.Props
