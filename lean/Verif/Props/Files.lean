import Verif.Model.Files
import Verif.Props.Critical
import Verif.Props.MlTools

/-!
# Files written by the collecting runs: C199 (crashes and fresh directories), C200 (used directories),
C201 (targets of problems with a fission spectrum)
-/

set_option linter.unusedSectionVars false
set_option linter.unusedSimpArgs false

namespace Discrete1.Props

open Finset Discrete1.Ml Discrete1.Tools Discrete1.MultiGroup Discrete1.Critical Discrete1.Files

/-! ### The disk -/

section Disk

variable {V : Type}

theorem lookup_put_self (d : Disk V) (n : Name) (f : File V) : (put d n f).lookup n = some f := by
  simp [put]

theorem lookup_filter_ne (d : Disk V) (n m : Name) (h : m ≠ n) :
    (d.filter fun e => decide (e.1 ≠ n)).lookup m = d.lookup m := by
  induction d with
  | nil => rfl
  | cons e d ih =>
    obtain ⟨a, b⟩ := e
    by_cases hn : a = n
    · subst hn
      rw [List.filter_cons_of_neg (by simp), ih, List.lookup_cons, beq_eq_false_iff_ne.mpr h]
    · rw [List.filter_cons_of_pos (by simpa using hn), List.lookup_cons, List.lookup_cons, ih]

theorem lookup_put_ne (d : Disk V) (n m : Name) (f : File V) (h : m ≠ n) :
    (put d n f).lookup m = d.lookup m := by
  rw [put, List.lookup_cons, beq_eq_false_iff_ne.mpr h]
  exact lookup_filter_ne d n m h

theorem names_put (d : Disk V) (n m : Name) (f : File V) :
    m ∈ (put d n f).map Prod.fst ↔ m = n ∨ m ∈ d.map Prod.fst := by
  simp only [put, List.map_cons, List.mem_cons, List.mem_map, List.mem_filter, decide_eq_true_eq]
  constructor
  · rintro (h | ⟨e, ⟨he, _⟩, rfl⟩)
    · exact Or.inl h
    · exact Or.inr ⟨e, he, rfl⟩
  · rintro (h | ⟨e, he, rfl⟩)
    · exact Or.inl h
    · by_cases hn : e.1 = n
      · exact Or.inl hn
      · exact Or.inr ⟨e, ⟨he, hn⟩, rfl⟩

theorem nodup_put (d : Disk V) (n : Name) (f : File V) (h : (d.map Prod.fst).Nodup) :
    ((put d n f).map Prod.fst).Nodup := by
  simp only [put, List.map_cons, List.nodup_cons]
  constructor
  · simp
  · exact h.sublist (List.Sublist.map _ List.filter_sublist)

theorem run_append (a b : Steps V) (d : Disk V) : run (a ++ b) d = run b (run a d) := by
  simp [run]

/-- The steps of several saves, one after the other. -/
def saves : List (Name × V) → Steps V
  | [] => []
  | a :: l => save a.1 a.2 ++ saves l

theorem saves_append (l m : List (Name × V)) : saves (l ++ m) = saves l ++ saves m := by
  induction l with
  | nil => rfl
  | cons a l ih => simp [saves, ih]

theorem saves_length (l : List (Name × V)) : (saves l).length = 2 * l.length := by
  induction l with
  | nil => rfl
  | cons a l ih => simp [saves, save, ih]; omega

/-- Steps that leave the file `n` alone. -/
theorem run_untouched (steps : Steps V) (n : Name) (h : ∀ s ∈ steps, ∀ d : Disk V, (s d).lookup n = d.lookup n)
    (d : Disk V) : (run steps d).lookup n = d.lookup n := by
  induction steps generalizing d with
  | nil => rfl
  | cons s steps ih =>
    show (run steps (s d)).lookup n = _
    rw [ih (fun s hs => h s (List.mem_cons_of_mem _ hs)), h s List.mem_cons_self]

theorem saves_untouched (l : List (Name × V)) (n : Name) (h : n ∉ l.map Prod.fst) :
    ∀ s ∈ saves l, ∀ d : Disk V, (s d).lookup n = d.lookup n := by
  induction l with
  | nil => intro s hs; cases hs
  | cons a l ih =>
    simp only [List.map_cons, List.mem_cons, not_or] at h
    intro s hs d
    rcases List.mem_append.mp hs with hs | hs
    · simp only [save, List.mem_cons, List.not_mem_nil, or_false] at hs
      rcases hs with rfl | rfl <;> exact lookup_put_ne _ _ _ _ h.1
    · exact ih h.2 s hs d

/-- A file that only the last of several saves writes cannot be read before that save has ended. -/
theorem last_missing (l : List (Name × V)) (n : Name) (v : V) (hn : n ∉ l.map Prod.fst) (d : Disk V)
    (hd : d.lookup n = none) (k : ℕ) (hk : k < (saves (l ++ [(n, v)])).length) :
    ∃ e, load (run ((saves (l ++ [(n, v)])).take k) d) n = .error e := by
  have hu := saves_untouched l n hn
  rw [saves_append, List.length_append] at hk
  rw [saves_append, List.take_append]
  have hl2 : (saves [(n, v)]).length = 2 := rfl
  rw [hl2] at hk
  rw [run_append]
  have h1 : (run ((saves l).take k) d).lookup n = none := by
    rw [run_untouched _ n (fun s hs => hu s (List.mem_of_mem_take hs)), hd]
  obtain hz | hz : k - (saves l).length = 0 ∨ k - (saves l).length = 1 := by omega
  · rw [hz]
    refine ⟨.fileNotFound, ?_⟩
    simp only [List.take_zero]
    show load (run ((saves l).take k) d) n = _
    simp [load, h1]
  · rw [hz]
    refine ⟨.valueError, ?_⟩
    show load (put (run ((saves l).take k) d) n .torn) n = _
    simp [load, lookup_put_self]

theorem load_untouched {steps : Steps V} {n : Name} (h : ∀ s ∈ steps, ∀ d : Disk V, (s d).lookup n = d.lookup n)
    (d : Disk V) : load (run steps d) n = load d n := by
  simp only [load, run_untouched steps n h d]

theorem load_after_save (l m : List (Name × V)) (n : Name) (v : V) (hm : n ∉ m.map Prod.fst) (d : Disk V) :
    load (run (saves (l ++ (n, v) :: m)) d) n = .ok v := by
  rw [saves_append, run_append]
  show load (run (save n v ++ saves m) _) n = _
  rw [run_append, load_untouched (saves_untouched m n hm)]
  show load (put _ n (.whole v)) n = _
  simp [load, lookup_put_self]

theorem names_saves (l : List (Name × V)) (d : Disk V) (m : Name) :
    m ∈ (run (saves l) d).map Prod.fst ↔ m ∈ l.map Prod.fst ∨ m ∈ d.map Prod.fst := by
  induction l generalizing d with
  | nil => simp [saves, run]
  | cons a l ih =>
    show m ∈ (run (save a.1 a.2 ++ saves l) d).map Prod.fst ↔ _
    rw [run_append, ih]
    show _ ∨ m ∈ (put (put d a.1 .torn) a.1 (.whole a.2)).map Prod.fst ↔ _
    rw [names_put, names_put]
    simp only [List.map_cons, List.mem_cons]
    tauto

theorem nodup_saves (l : List (Name × V)) (d : Disk V) (h : (d.map Prod.fst).Nodup) :
    ((run (saves l) d).map Prod.fst).Nodup := by
  induction l generalizing d with
  | nil => exact h
  | cons a l ih =>
    show ((run (save a.1 a.2 ++ saves l) d).map Prod.fst).Nodup
    rw [run_append]
    exact ih _ (nodup_put _ _ _ (nodup_put _ _ _ h))

end Disk

/-! ### Names -/

theorem isPrefixOf_append (p a b : Name) : (p ++ a).isPrefixOf (p ++ b) = a.isPrefixOf b := by
  induction p with
  | nil => rfl
  | cons c p ih => simp [List.isPrefixOf, ih]

theorem globMatch_scatter (path : Name) (j : ℕ) (hj : j < 101) :
    globMatch (path ++ "flux_scatter_model".toList) ".npy".toList (scatterName path j) = true := by
  have h1 : (path ++ "flux_scatter_model".toList).isPrefixOf (scatterName path j) = true := by
    unfold scatterName
    rw [isPrefixOf_append, List.append_assoc, List.isPrefixOf_iff_prefix]
    exact List.prefix_append _ _
  have h2 : (scatterName path j).drop (path ++ "flux_scatter_model".toList).length
      = ('_' :: zfill 3 (natStr j)) ++ ".npy".toList := by
    unfold scatterName
    rw [List.append_assoc, ← List.append_assoc path]
    exact List.drop_left
  have h3 : (scatterName path j).length - (path ++ "flux_scatter_model".toList).length - ".npy".toList.length
      = ('_' :: zfill 3 (natStr j)).length := by
    unfold scatterName
    simp only [List.length_append]
    omega
  have h4 : ∀ j < 101, ('_' :: zfill 3 (natStr j)).contains '/' = false := by decide +kernel
  rw [globMatch, h1, h2, h3, List.take_left, h4 j hj]
  simp [List.isSuffixOf_iff_suffix]

theorem globMatch_named (path : Name) (s : String)
    (h : "flux_scatter_model".toList.isPrefixOf (s.toList ++ ".npy".toList) = false) :
    globMatch (path ++ "flux_scatter_model".toList) ".npy".toList (named path s) = false := by
  rw [globMatch, named, isPrefixOf_append, h]
  rfl

theorem scatter_digits_sorted : ((List.range 101).map fun j => zfill 3 (natStr j)).Pairwise (· < ·) := by
  decide +kernel

theorem append_lt_append (p a b : Name) (h : a < b) : p ++ a < p ++ b := by
  induction p with
  | nil => exact h
  | cons c p ih => exact List.cons_lt_cons_self.mpr ih

theorem lt_append_right (a b s : Name) (hl : a.length = b.length) (h : a < b) : a ++ s < b ++ s := by
  induction a generalizing b with
  | nil =>
    cases b with
    | nil => exact absurd h (List.lt_irrefl _)
    | cons y b => simp at hl
  | cons x a ih =>
    cases b with
    | nil => simp at hl
    | cons y b =>
      rw [List.cons_append, List.cons_append]
      rcases List.cons_lt_cons_iff.mp h with h1 | ⟨rfl, h1⟩
      · exact List.cons_lt_cons_iff.mpr (Or.inl h1)
      · exact List.cons_lt_cons_self.mpr (ih b (by simpa using hl) h1)

theorem zfill_length : ∀ j < 101, (zfill 3 (natStr j)).length = 3 := by decide +kernel

theorem scatterName_lt (path : Name) (i j : ℕ) (hij : i < j) (hj : j < 101) :
    scatterName path i < scatterName path j := by
  have h : zfill 3 (natStr i) < zfill 3 (natStr j) := by
    have := List.pairwise_iff_getElem.mp scatter_digits_sorted i j (by simp; omega) (by simpa using hj) hij
    simpa using this
  unfold scatterName
  refine append_lt_append _ _ _ ?_
  rw [List.append_assoc, List.append_assoc]
  refine append_lt_append _ _ _ ?_
  rw [List.cons_append, List.cons_append]
  refine List.cons_lt_cons_self.mpr (lt_append_right _ _ _ ?_ h)
  rw [zfill_length i (by omega), zfill_length j hj]

theorem scatterName_inj (path : Name) (i j : ℕ) (hi : i < 101) (hj : j < 101)
    (h : scatterName path i = scatterName path j) : i = j := by
  rcases lt_trichotomy i j with h1 | h1 | h1
  · have := scatterName_lt path i j h1 hj
    rw [h] at this
    exact absurd this (List.lt_irrefl _)
  · exact h1
  · have := scatterName_lt path j i h1 hi
    rw [h] at this
    exact absurd this (List.lt_irrefl _)

theorem scatterName_ne_named (path : Name) (j : ℕ) (hj : j < 101) (s : String)
    (h : "flux_scatter_model".toList.isPrefixOf (s.toList ++ ".npy".toList) = false) :
    scatterName path j ≠ named path s := by
  intro he
  have := globMatch_scatter path j hj
  rw [he, globMatch_named path s h] at this
  cases this

theorem named_ne (path : Name) (s t : String) (h : s.toList ++ ".npy".toList ≠ t.toList ++ ".npy".toList) :
    named path s ≠ named path t := fun he => h (List.append_cancel_left he)

/-- The sorted list of matching names is the list of pass names. -/
theorem scatterFiles_eq {V : Type} (path : Name) (d : Disk V) (hd : (d.map Prod.fst).Nodup) (n : ℕ) (hn : n ≤ 101)
    (h : ∀ m ∈ d.map Prod.fst, globMatch (path ++ "flux_scatter_model".toList) ".npy".toList m = true →
      ∃ j < n, m = scatterName path j)
    (h' : ∀ j < n, scatterName path j ∈ d.map Prod.fst) :
    scatterFiles path d = (List.range n).map (scatterName path) := by
  have hnodup : ((List.range n).map (scatterName path)).Nodup := by
    rw [List.nodup_map_iff_inj_on List.nodup_range]
    intro i hi j hj he
    exact scatterName_inj path i j (by have := List.mem_range.mp hi; omega)
      (by have := List.mem_range.mp hj; omega) he
  unfold scatterFiles
  refine List.Perm.eq_of_pairwise (le := (· ≤ ·)) ?_ ?_ ?_ ?_
  · intro a b _ _ h1 h2; exact List.le_antisymm h1 h2
  · have := List.pairwise_mergeSort (le := fun a b : Name => decide (a ≤ b))
      (fun a b c h1 h2 => by simp only [decide_eq_true_eq] at *; exact List.le_trans h1 h2)
      (fun a b => by simp only [Bool.or_eq_true, decide_eq_true_eq]; exact List.le_total a b)
      ((d.map Prod.fst).filter (globMatch (path ++ "flux_scatter_model".toList) ".npy".toList))
    exact this.imp (by simp)
  · rw [List.pairwise_map]
    refine (List.pairwise_lt_range).imp_of_mem ?_
    intro i j hi hj hij
    exact List.le_of_lt (scatterName_lt path i j hij (by have := List.mem_range.mp hj; omega))
  · refine (List.mergeSort_perm _ _).trans ?_
    rw [List.perm_ext_iff_of_nodup (hd.filter _) hnodup]
    intro m
    simp only [List.mem_filter, List.mem_map, List.mem_range]
    constructor
    · rintro ⟨hm, hg⟩
      obtain ⟨j, hj, rfl⟩ := h m (List.mem_map.mpr hm) hg
      exact ⟨j, hj, rfl⟩
    · rintro ⟨j, hj, rfl⟩
      exact ⟨List.mem_map.mp (h' j hj), globMatch_scatter path j (by omega)⟩

/-! ### Rows -/

section Rows

variable {K : Type} [Field K] [LinearOrder K]

theorem mapM_all_ok {A B : Type} (f : A → Except PyErr B) (g : A → B) (l : List A) (h : ∀ a ∈ l, f a = .ok (g a)) :
    l.mapM f = .ok (l.map g) := by
  induction l with
  | nil => rfl
  | cons a l ih =>
    rw [List.mapM_cons, h a List.mem_cons_self, ih fun b hb => h b (List.mem_cons_of_mem _ hb)]
    rfl

/-- Arrays of consistent shapes are combined as `combine_flux_reaction` is specified (C55). -/
theorem combine_ok (n cells groups materials nLabels : ℕ) (a xs : ℕ → ℕ → ℕ → K) (mm : ℕ → ℕ) (labels : ℕ → K)
    (hm : ∀ i < cells, mm i < materials) (hl : cells ≤ nLabels) :
    combine (.flux n cells groups a) (.xs materials groups groups xs) (.map cells mm) nLabels labels
      = .ok (combineFluxReaction n cells groups a xs mm labels) := by
  have hrow : ∀ k ∈ List.range (n * cells), cellRow groups cells mm nLabels labels
      (.xs materials groups groups xs) a (k / cells) (k % cells)
      = .ok (dataRow groups a xs mm labels (k / cells) (k % cells)) := by
    intro k hk
    have hc : 0 < cells := by
      rcases Nat.eq_zero_or_pos cells with h | h
      · subst h; simp at hk
      · exact h
    have hi : k % cells < cells := Nat.mod_lt _ hc
    simp only [cellRow, reactionRate, dataRow]
    rw [if_neg (by omega), if_neg (by omega), if_neg (by have := hm _ hi; omega), if_neg (by simp)]
    simp
  unfold combine
  simp only [mapM_all_ok _ _ _ hrow]
  congr 1
  unfold combineFluxReaction
  rw [List.filter_map]
  rfl

/-- The rows of the vector form: the reaction rate is one number, the same in every group. -/
def vectorRow (groups : ℕ) (a : ℕ → ℕ → ℕ → K) (nu : ℕ → ℕ → K) (mm : ℕ → ℕ) (labels : ℕ → K) (cc ii : ℕ) : Row K :=
  ⟨labels ii, a cc ii, fun _ => ∑ g ∈ range groups, a cc ii g * nu (mm ii) g⟩

theorem combine_vec (n cells groups materials nLabels : ℕ) (a : ℕ → ℕ → ℕ → K) (nu : ℕ → ℕ → K) (mm : ℕ → ℕ)
    (labels : ℕ → K) (hm : ∀ i < cells, mm i < materials) (hl : cells ≤ nLabels) :
    combine (.flux n cells groups a) (.vec materials groups nu) (.map cells mm) nLabels labels
      = .ok (((List.range (n * cells)).map fun k => vectorRow groups a nu mm labels (k / cells) (k % cells)).filter
        fun r => decide (rowSum groups r ≠ 0)) := by
  have hrow : ∀ k ∈ List.range (n * cells), cellRow groups cells mm nLabels labels
      (.vec materials groups nu) a (k / cells) (k % cells)
      = .ok (vectorRow groups a nu mm labels (k / cells) (k % cells)) := by
    intro k hk
    have hc : 0 < cells := by
      rcases Nat.eq_zero_or_pos cells with h | h
      · subst h; simp at hk
      · exact h
    have hi : k % cells < cells := Nat.mod_lt _ hc
    simp only [cellRow, reactionRate, vectorRow]
    rw [if_neg (by omega), if_neg (by omega), if_neg (by have := hm _ hi; omega), if_neg (by simp)]
    simp [accum_eq_sum]
  unfold combine
  simp only [mapM_all_ok _ _ _ hrow]

/-! ### The passes -/

/-- The passes of a collecting run: `st j` is the state before pass `j`, which saves the `n j` inner fluxes
`snaps j`. -/
structure Passes (step : KState K → Except PyErr (KState K × ℕ × (ℕ → ℕ → ℕ → K))) (s : KState K) (passes : ℕ)
    (st : ℕ → KState K) (n : ℕ → ℕ) (snaps : ℕ → ℕ → ℕ → ℕ → K) : Prop where
  first : st 0 = s
  pass : ∀ j < passes, step (st j) = .ok (st (j + 1), n j, snaps j)

theorem collectTrace_spec (step : KState K → Except PyErr (KState K × ℕ × (ℕ → ℕ → ℕ → K)))
    (conv : (ℕ → ℕ → K) → (ℕ → ℕ → K) → Bool) :
    ∀ left count s tracked, (collectTrace step conv left count s tracked).2 = collectLoop step conv left count s tracked ∧
      ∃ passes st n snaps, Passes step s passes st n snaps ∧ passes ≤ left + 1 ∧
        (collectTrace step conv left count s tracked).1 = (List.range passes).map (fun j => (n j, snaps j)) ∧
        ∀ c, collectLoop step conv left count s tracked = .ok c → 1 ≤ passes ∧ c.rows = count + passes - 1 := by
  intro left
  induction left with
  | zero =>
    intro count s tracked
    unfold collectTrace collectLoop
    rcases hs : step s with e | ⟨s', n, snaps⟩
    · exact ⟨rfl, 0, fun _ => s, fun _ => 0, fun _ _ _ _ => 0, ⟨rfl, fun j hj => by omega⟩, by omega, rfl,
        fun c hc => by simp at hc⟩
    · refine ⟨by simp only []; split_ifs <;> rfl, 1, fun j => if j = 0 then s else s', fun _ => n, fun _ => snaps,
        ⟨rfl, fun j hj => ?_⟩, by omega, ?_, ?_⟩
      · have : j = 0 := by omega
        subst this; simpa using hs
      · simp only []; split_ifs <;> rfl
      · intro c hc
        simp only [ite_self, Except.ok.injEq] at hc
        subst hc
        exact ⟨le_rfl, rfl⟩
  | succ left ih =>
    intro count s tracked
    unfold collectTrace collectLoop
    rcases hs : step s with e | ⟨s', n, snaps⟩
    · exact ⟨rfl, 0, fun _ => s, fun _ => 0, fun _ _ _ _ => 0, ⟨rfl, fun j hj => by omega⟩, by omega, rfl,
        fun c hc => by simp at hc⟩
    · by_cases hc : conv s'.flux s.flux = true
      · refine ⟨by simp [hc], 1, fun j => if j = 0 then s else s', fun _ => n, fun _ => snaps,
          ⟨rfl, fun j hj => ?_⟩, by omega, ?_, ?_⟩
        · have : j = 0 := by omega
          subst this; simpa using hs
        · simp [hc]
        · intro c hc'
          simp only [hc, if_true, Except.ok.injEq] at hc'
          subst hc'
          exact ⟨le_rfl, rfl⟩
      · obtain ⟨h1, passes, st, n', snaps', hP, hle, htr, hrows⟩ := ih (count + 1) s'
          (Function.update tracked (pyIndex 100 ((count : ℤ) + 1 - 2)) s'.flux)
        refine ⟨by simp only [hc, if_false, Bool.false_eq_true]; exact h1, passes + 1,
          fun j => if j = 0 then s else st (j - 1), fun j => if j = 0 then n else n' (j - 1),
          fun j => if j = 0 then snaps else snaps' (j - 1), ⟨rfl, fun j hj => ?_⟩, by omega, ?_, ?_⟩
        · rcases j with _ | j
          · simpa [hP.first] using hs
          · simpa using hP.pass j (by omega)
        · simp only [hc, if_false, Bool.false_eq_true, htr]
          rw [List.range_succ_eq_map, List.map_cons, List.map_map]
          congr 1
        · intro c hc'
          simp only [hc, if_false, Bool.false_eq_true] at hc'
          obtain ⟨h2, h3⟩ := hrows c hc'
          exact ⟨by omega, by omega⟩

/-- The saves of the passes `j, j + 1, ...` as a list. -/
def scatterList (cells groups : ℕ) (path : Name) : ℕ → List (ℕ × (ℕ → ℕ → ℕ → K)) → List (Name × NpArray K)
  | _, [] => []
  | j, a :: l => (scatterName path j, .flux a.1 cells groups a.2) :: scatterList cells groups path (j + 1) l

theorem scatterSteps_eq (cells groups : ℕ) (path : Name) (j : ℕ) (l : List (ℕ × (ℕ → ℕ → ℕ → K))) :
    scatterSteps cells groups path j l = saves (scatterList cells groups path j l) := by
  induction l generalizing j with
  | nil => rfl
  | cons a l ih => simp only [scatterSteps, scatterList, saves, ih]

theorem scatterList_names (cells groups : ℕ) (path : Name) (j : ℕ) (l : List (ℕ × (ℕ → ℕ → ℕ → K))) (m : Name) :
    m ∈ (scatterList cells groups path j l).map Prod.fst ↔ ∃ i < l.length, m = scatterName path (j + i) := by
  induction l generalizing j with
  | nil => simp [scatterList]
  | cons a l ih =>
    simp only [scatterList, List.map_cons, List.mem_cons, ih, List.length_cons]
    constructor
    · rintro (h | ⟨i, hi, h⟩)
      · exact ⟨0, by omega, h⟩
      · exact ⟨i + 1, by omega, by rw [h, Nat.add_assoc, Nat.add_comm 1]⟩
    · rintro ⟨i, hi, h⟩
      rcases i with _ | i
      · exact Or.inl h
      · exact Or.inr ⟨i, by omega, by rw [h, Nat.add_assoc, Nat.add_comm 1]⟩

theorem scatterList_length (cells groups : ℕ) (path : Name) (j : ℕ) (l : List (ℕ × (ℕ → ℕ → ℕ → K))) :
    (scatterList cells groups path j l).length = l.length := by
  induction l generalizing j with
  | nil => rfl
  | cons a l ih => simp [scatterList, ih]

theorem take_scatterList (cells groups : ℕ) (path : Name) (q : ℕ) :
    ∀ (j : ℕ) (l : List (ℕ × (ℕ → ℕ → ℕ → K))),
      (scatterList cells groups path j l).take q = scatterList cells groups path j (l.take q) := by
  induction q with
  | zero => intro j l; rfl
  | succ q ih =>
    intro j l
    cases l with
    | nil => rfl
    | cons a l => simp [scatterList, ih]

theorem load_scatter (cells groups : ℕ) (path : Name) (l : List (ℕ × (ℕ → ℕ → ℕ → K))) :
    ∀ (j : ℕ) (m : List (Name × NpArray K)) (d : Disk (NpArray K)) (i : ℕ) (hi : i < l.length), j + l.length ≤ 101 →
      scatterName path (j + i) ∉ m.map Prod.fst →
      load (run (saves (scatterList cells groups path j l ++ m)) d) (scatterName path (j + i))
        = .ok (.flux l[i].1 cells groups l[i].2) := by
  induction l with
  | nil => intro j m d i hi; simp at hi
  | cons a l ih =>
    intro j m d i hi hj hm
    rcases i with _ | i
    · refine load_after_save [] (scatterList cells groups path (j + 1) l ++ m) _ _ ?_ d
      rw [List.map_append, List.mem_append, not_or]
      refine ⟨?_, hm⟩
      rw [scatterList_names]
      rintro ⟨i, hi', h⟩
      simp only [List.length_cons] at hj
      have := scatterName_inj path _ _ (by omega) (by omega) h
      omega
    · show load (run (save _ _ ++ saves (scatterList cells groups path (j + 1) l ++ m)) d) _ = _
      rw [run_append]
      have e : j + (i + 1) = j + 1 + i := by omega
      rw [e] at hm ⊢
      simp only [List.length_cons] at hj hi
      rw [ih (j + 1) m _ i (by omega) (by omega) hm]
      rfl

/-- The four final saves as a list. -/
def finalList (cells groups materials : ℕ) (mm : ℕ → ℕ) (path : Name) (xs : ℕ → ℕ → ℕ → K) (fission : Fission K)
    (c : Collected K) : List (Name × NpArray K) :=
  [(named path "flux_fission_model", .flux c.rows cells groups c.saved),
    (named path "fission_cross_sections", fissionArray materials groups fission),
    (named path "scatter_cross_sections", .xs materials groups groups xs),
    (named path "medium_map", .map cells mm)]

theorem finalSteps_eq (cells groups materials : ℕ) (mm : ℕ → ℕ) (path : Name) (xs : ℕ → ℕ → ℕ → K)
    (fission : Fission K) (c : Collected K) :
    finalSteps cells groups materials mm path xs fission c
      = saves (finalList cells groups materials mm path xs fission c) := rfl

theorem scatterLoop_ok (xs map : NpArray K) (width nLabels : ℕ) (labels : ℕ → K) (d : Disk (NpArray K)) (files : List Name)
    (flux : Name → NpArray K) (rows : Name → List (Row K)) (hload : ∀ f ∈ files, load d f = .ok (flux f))
    (hcomb : ∀ f ∈ files, combine (flux f) xs map nLabels labels = .ok (rows f))
    (hw : ∀ f ∈ files, rowEntries (flux f) = width) (data : List (Row K)) :
    scatterLoop xs map width nLabels labels d files data = .ok (data ++ files.flatMap rows) := by
  induction files generalizing data with
  | nil => simp [scatterLoop]
  | cons f files ih =>
    unfold scatterLoop
    simp only [hload f List.mem_cons_self, hcomb f List.mem_cons_self, hw f List.mem_cons_self, if_true]
    rw [ih (fun f h => hload f (List.mem_cons_of_mem _ h)) (fun f h => hcomb f (List.mem_cons_of_mem _ h))
      (fun f h => hw f (List.mem_cons_of_mem _ h))]
    simp

theorem lookup_mem {V : Type} (d : Disk V) (n : Name) (v : V) (h : load d n = .ok v) : n ∈ d.map Prod.fst := by
  by_contra hn
  have : d.lookup n = none := by
    induction d with
    | nil => rfl
    | cons e d ih =>
      obtain ⟨a, b⟩ := e
      simp only [List.map_cons, List.mem_cons, not_or] at hn
      rw [List.lookup_cons, beq_eq_false_iff_ne.mpr hn.1]
      refine ih ?_ hn.2
      unfold load at h ⊢
      rw [List.lookup_cons, beq_eq_false_iff_ne.mpr hn.1] at h
      exact h
  simp [load, this] at h

theorem take_saves {V : Type} (l : List (Name × V)) (j : ℕ) : (saves l).take (2 * j) = saves (l.take j) := by
  induction l generalizing j with
  | nil => simp [saves]
  | cons a l ih =>
    rcases j with _ | j
    · rfl
    · rw [List.take_succ_cons]
      show List.take (2 * (j + 1)) (save a.1 a.2 ++ saves l) = save a.1 a.2 ++ saves (l.take j)
      rw [← ih, Nat.mul_add]
      rfl

/-- What `clean_data_scatter` computes in a directory with the snapshots of the passes `0, ..., N - 1`. -/
theorem scatterRows_of (path : Name) (d : Disk (NpArray K)) (hnd : (d.map Prod.fst).Nodup) (N cells groups materials : ℕ)
    (hN : N ≤ 101) (xs : ℕ → ℕ → ℕ → K) (mm : ℕ → ℕ) (n : ℕ → ℕ) (snaps : ℕ → ℕ → ℕ → ℕ → K)
    (hglob : ∀ m ∈ d.map Prod.fst, globMatch (path ++ "flux_scatter_model".toList) ".npy".toList m = true →
      ∃ j < N, m = scatterName path j)
    (hload : ∀ j < N, load d (scatterName path j) = .ok (.flux (n j) cells groups (snaps j)))
    (hC : load d (named path "scatter_cross_sections") = .ok (.xs materials groups groups xs))
    (hD : load d (named path "medium_map") = .ok (.map cells mm))
    (hmat : ∀ i < cells, mm i < materials) (nLabels : ℕ) (hl : cells ≤ nLabels) (labels : ℕ → K) :
    scatterRows path nLabels labels d = .ok ((List.range N).flatMap fun j =>
        combineFluxReaction (n j) cells groups (snaps j) xs mm labels) := by
  have hfiles : scatterFiles path d = (List.range N).map (scatterName path) :=
    scatterFiles_eq path d hnd _ hN hglob fun j hj => lookup_mem _ _ _ (hload j hj)
  have hloop : ∀ (js : List ℕ), (∀ j ∈ js, j < N) → ∀ data,
      scatterLoop (.xs materials groups groups xs) (.map cells mm) groups nLabels labels d
        (js.map (scatterName path)) data = .ok (data ++ js.flatMap fun j =>
          combineFluxReaction (n j) cells groups (snaps j) xs mm labels) := by
    intro js
    induction js with
    | nil => intro _ data; simp [scatterLoop]
    | cons j js ih =>
      intro hj data
      rw [List.map_cons]
      unfold scatterLoop
      simp only [hload j (hj j List.mem_cons_self), rowEntries, if_true,
        combine_ok (n j) cells groups materials nLabels (snaps j) xs mm labels hmat hl]
      rw [ih fun i hi => hj i (List.mem_cons_of_mem _ hi)]
      simp
  unfold scatterRows
  rw [hC, hD, hfiles]
  show scatterLoop (.xs materials groups groups xs) (.map cells mm) groups nLabels labels d _ [] = _
  rw [hloop _ (fun j hj => List.mem_range.mp hj), List.nil_append]

/-! ### C199: crashes of a collecting run in a fresh directory -/

variable (p : Problem K) (materials : ℕ) (norm : (ℕ → ℕ → K) → K) (conv : (ℕ → ℕ → K) → (ℕ → ℕ → K) → Bool)
  (xsTotal : ℕ → ℕ → K) (xs : ℕ → ℕ → ℕ → K) (fission : Fission K) (random : ℕ → ℕ → K) (path : Name)

theorem collectSteps_ok (c : Collected K)
    (hc : collectPowerIteration p norm conv xsTotal xs fission random = .ok c) :
    ∃ st n snaps, Passes (collectStep p norm xsTotal xs fission) (start norm random) (c.rows + 1) st n snaps ∧
      c.rows + 1 ≤ 101 ∧
      collectSteps p materials norm conv xsTotal xs fission random path
        = saves (scatterList p.cells p.groups path 0 ((List.range (c.rows + 1)).map fun j => (n j, snaps j)) ++
          finalList p.cells p.groups materials p.mm path xs fission c) := by
  unfold collectPowerIteration at hc
  obtain ⟨h2, passes, st, n, snaps, hP, hle, htr, hrows⟩ := collectTrace_spec
    (collectStep p norm xsTotal xs fission) conv 100 0 (start norm random) fun _ _ _ => 0
  obtain ⟨h3, h4⟩ := hrows c hc
  obtain rfl : passes = c.rows + 1 := by omega
  refine ⟨st, n, snaps, hP, hle, ?_⟩
  unfold collectSteps
  simp only [htr, h2, hc]
  rw [scatterSteps_eq, finalSteps_eq, saves_append]

theorem collectSteps_error (e : PyErr)
    (hc : collectPowerIteration p norm conv xsTotal xs fission random = .error e) :
    ∃ l : List (ℕ × (ℕ → ℕ → ℕ → K)), l.length ≤ 101 ∧
      collectSteps p materials norm conv xsTotal xs fission random path
        = saves (scatterList p.cells p.groups path 0 l) := by
  unfold collectPowerIteration at hc
  obtain ⟨h2, passes, st, n, snaps, hP, hle, htr, hrows⟩ := collectTrace_spec
    (collectStep p norm xsTotal xs fission) conv 100 0 (start norm random) fun _ _ _ => 0
  refine ⟨(List.range passes).map fun j => (n j, snaps j), by simpa using hle, ?_⟩
  unfold collectSteps
  simp only [htr, h2, hc]
  rw [scatterSteps_eq, List.append_nil]

theorem finalList_glob (c : Collected K) :
    ∀ m ∈ (finalList p.cells p.groups materials p.mm path xs fission c).map Prod.fst,
      globMatch (path ++ "flux_scatter_model".toList) ".npy".toList m = false := by
  intro m hm
  simp only [finalList, List.map_cons, List.map_nil, List.mem_cons, List.not_mem_nil, or_false] at hm
  rcases hm with rfl | rfl | rfl | rfl <;> exact globMatch_named path _ (by decide)

theorem map_not_scatter (cells groups : ℕ) (l : List (ℕ × (ℕ → ℕ → ℕ → K))) (hl : l.length ≤ 101) (s : String)
    (h : "flux_scatter_model".toList.isPrefixOf (s.toList ++ ".npy".toList) = false) :
    named path s ∉ (scatterList cells groups path 0 l).map Prod.fst := by
  rw [scatterList_names]
  rintro ⟨i, hi, he⟩
  exact scatterName_ne_named path (0 + i) (by omega) s h he.symm

theorem rows_need_map (nLabels : ℕ) (labels : ℕ → K) (d : Disk (NpArray K)) (e : PyErr)
    (h : load d (named path "medium_map") = .error e) :
    (∃ e', fissionRows path nLabels labels d = .error e') ∧ ∃ e', scatterRows path nLabels labels d = .error e' := by
  constructor
  · unfold fissionRows
    rcases h1 : load d (named path "flux_fission_model") with e1 | a1
    · exact ⟨e1, rfl⟩
    · rcases h2 : load d (named path "fission_cross_sections") with e2 | a2
      · exact ⟨e2, rfl⟩
      · exact ⟨e, by rw [h]; rfl⟩
  · unfold scatterRows
    rcases h1 : load d (named path "scatter_cross_sections") with e1 | a1
    · exact ⟨e1, rfl⟩
    · exact ⟨e, by rw [h]; rfl⟩

/-- C199: a collecting run that is killed at any point before its last disk write, in a directory without an earlier
`medium_map.npy`, leaves a directory from which no training rows can be built: both cleaning functions raise, with any
splits, and write nothing. -/
theorem C199_crash (d : Disk (NpArray K)) (hd : d.lookup (named path "medium_map") = none) (k : ℕ)
    (hk : k < (collectSteps p materials norm conv xsTotal xs fission random path).length ∨
      ∃ e, collectPowerIteration p norm conv xsTotal xs fission random = .error e)
    (nLabels : ℕ) (labels : ℕ → K) (scatter : Bool) (splits : Option (List (Name × List K))) :
    let d' := run ((collectSteps p materials norm conv xsTotal xs fission random path).take k) d
    ∃ e, cleanCall path scatter splits nLabels labels d' = ([], .error e) := by
  intro d'
  have key : ∃ e, load d' (named path "medium_map") = .error e := by
    rcases hc : collectPowerIteration p norm conv xsTotal xs fission random with e | c
    · obtain ⟨l, hl, hs⟩ := collectSteps_error p materials norm conv xsTotal xs fission random path e hc
      refine ⟨.fileNotFound, ?_⟩
      have : d'.lookup (named path "medium_map") = none := by
        rw [← hd]
        refine run_untouched _ _ (fun s hs' => ?_) d
        rw [hs] at hs'
        exact saves_untouched _ _ (map_not_scatter path _ _ l hl _ (by decide)) s (List.mem_of_mem_take hs')
      simp [load, this]
    · obtain ⟨st, n, snaps, hP, hle, hs⟩ := collectSteps_ok p materials norm conv xsTotal xs fission random path c hc
      have hk : k < (collectSteps p materials norm conv xsTotal xs fission random path).length := by
        rcases hk with h | ⟨e, h⟩
        · exact h
        · rw [h] at hc; cases hc
      have e0 : scatterList p.cells p.groups path 0 ((List.range (c.rows + 1)).map fun j => (n j, snaps j)) ++
          finalList p.cells p.groups materials p.mm path xs fission c
          = (scatterList p.cells p.groups path 0 ((List.range (c.rows + 1)).map fun j => (n j, snaps j)) ++
            [(named path "flux_fission_model", NpArray.flux c.rows p.cells p.groups c.saved),
              (named path "fission_cross_sections", fissionArray materials p.groups fission),
              (named path "scatter_cross_sections", .xs materials p.groups p.groups xs)]) ++
            [(named path "medium_map", .map p.cells p.mm)] := by
        rw [List.append_assoc]; rfl
      rw [e0] at hs
      rw [hs] at hk
      have := last_missing _ (named path "medium_map") (NpArray.map p.cells p.mm) (by
        rw [List.map_append, List.mem_append, not_or]
        refine ⟨map_not_scatter path _ _ _ (by simpa using hle) _ (by decide), ?_⟩
        simp only [List.map_cons, List.map_nil, List.mem_cons, List.not_mem_nil, or_false, not_or]
        exact ⟨named_ne _ _ _ (by decide), named_ne _ _ _ (by decide), named_ne _ _ _ (by decide)⟩) d hd k hk
      show ∃ e, load (run (List.take k _) d) _ = _
      rw [hs]
      exact this
  obtain ⟨e, he⟩ := key
  obtain ⟨⟨e1, h1⟩, e2, h2⟩ := rows_need_map path nLabels labels d' e he
  cases scatter
  · exact ⟨e1, by simp [cleanCall, h1]⟩
  · exact ⟨e2, by simp [cleanCall, h2]⟩

/-- C199: after a completed run whose directory held no scattering snapshots of an earlier, longer run, the scattering
training data are the rows of every inner iteration of every pass, in order, and (with a fission matrix) the fission
training data are the rows of the tracked fluxes. -/
theorem C199_complete (d : Disk (NpArray K)) (hnd : (d.map Prod.fst).Nodup) (c : Collected K)
    (hc : collectPowerIteration p norm conv xsTotal xs fission random = .ok c)
    (hold : ∀ m ∈ d.map Prod.fst, globMatch (path ++ "flux_scatter_model".toList) ".npy".toList m = true →
      ∃ j < c.rows + 1, m = scatterName path j)
    (hmat : ∀ i < p.cells, p.mm i < materials) (nLabels : ℕ) (hl : p.cells ≤ nLabels) (labels : ℕ → K) :
    let d' := run (collectSteps p materials norm conv xsTotal xs fission random path) d
    (∃ st n snaps, Passes (collectStep p norm xsTotal xs fission) (start norm random) (c.rows + 1) st n snaps ∧
      scatterRows path nLabels labels d' = .ok ((List.range (c.rows + 1)).flatMap fun j =>
        combineFluxReaction (n j) p.cells p.groups (snaps j) xs p.mm labels)) ∧
    (∀ xsF, fission = .matrix xsF → fissionRows path nLabels labels d'
      = .ok (combineFluxReaction c.rows p.cells p.groups c.saved xsF p.mm labels)) ∧
    (∀ chi nu, fission = .vector chi nu → fissionRows path nLabels labels d'
      = .ok (((List.range (c.rows * p.cells)).map fun k =>
          vectorRow p.groups c.saved nu p.mm labels (k / p.cells) (k % p.cells)).filter
            fun r => decide (rowSum p.groups r ≠ 0))) := by
  intro d'
  obtain ⟨st, n, snaps, hP, hle, hs⟩ := collectSteps_ok p materials norm conv xsTotal xs fission random path c hc
  obtain ⟨l, hl'⟩ : ∃ l, l = (List.range (c.rows + 1)).map fun j => (n j, snaps j) := ⟨_, rfl⟩
  rw [← hl'] at hs
  have hlen : l.length = c.rows + 1 := by rw [hl']; simp
  have hd' : d' = run (saves (scatterList p.cells p.groups path 0 l ++
      finalList p.cells p.groups materials p.mm path xs fission c)) d := by rw [← hs]
  have hA : load d' (named path "flux_fission_model") = .ok (.flux c.rows p.cells p.groups c.saved) := by
    rw [hd']
    refine load_after_save _ _ _ _ ?_ d
    simp only [List.map_cons, List.map_nil, List.mem_cons, List.not_mem_nil, or_false, not_or]
    exact ⟨named_ne _ _ _ (by decide), named_ne _ _ _ (by decide), named_ne _ _ _ (by decide)⟩
  have hB : load d' (named path "fission_cross_sections") = .ok (fissionArray materials p.groups fission) := by
    rw [hd', finalList, List.append_cons]
    refine load_after_save _ _ _ _ ?_ d
    simp only [List.map_cons, List.map_nil, List.mem_cons, List.not_mem_nil, or_false, not_or]
    exact ⟨named_ne _ _ _ (by decide), named_ne _ _ _ (by decide)⟩
  have hC : load d' (named path "scatter_cross_sections") = .ok (.xs materials p.groups p.groups xs) := by
    rw [hd', finalList, List.append_cons, List.append_cons]
    refine load_after_save _ _ _ _ ?_ d
    simp only [List.map_cons, List.map_nil, List.mem_cons, List.not_mem_nil, or_false, not_or]
    exact named_ne _ _ _ (by decide)
  have hD : load d' (named path "medium_map") = .ok (.map p.cells p.mm) := by
    rw [hd', finalList, List.append_cons, List.append_cons, List.append_cons]
    refine load_after_save _ _ _ _ ?_ d
    simp
  refine ⟨⟨st, n, snaps, hP, ?_⟩, ?_, ?_⟩
  · refine scatterRows_of path d' (by rw [hd']; exact nodup_saves _ d hnd) (c.rows + 1) p.cells p.groups materials hle
      xs p.mm n snaps ?_ ?_ hC hD hmat nLabels hl labels
    · intro m hm hg
      rw [hd', names_saves, List.map_append, List.mem_append, scatterList_names] at hm
      rcases hm with (⟨i, hi, rfl⟩ | hm) | hm
      · exact ⟨0 + i, by omega, rfl⟩
      · rw [finalList_glob p materials xs fission path c m hm] at hg; cases hg
      · exact hold m hm hg
    · intro j hj
      have := load_scatter p.cells p.groups path l 0
        (finalList p.cells p.groups materials p.mm path xs fission c) d j (by omega) (by omega) (by
          intro hm
          have := finalList_glob p materials xs fission path c _ hm
          rw [globMatch_scatter path _ (by omega)] at this
          cases this)
      rw [Nat.zero_add] at this
      rw [hd', this]
      simp [hl']
  · rintro xsF rfl
    unfold fissionRows
    rw [hA, hB, hD]
    exact combine_ok c.rows p.cells p.groups materials nLabels c.saved xsF p.mm labels hmat hl
  · rintro chi nu rfl
    unfold fissionRows
    rw [hA, hB, hD]
    exact combine_vec c.rows p.cells p.groups materials nLabels c.saved nu p.mm labels hmat hl

/-! ### C200: a directory that was used before -/

/-- The directory after a completed run: the files of the run, and every other file as it was. -/
theorem collect_dir (d : Disk (NpArray K)) (hnd : (d.map Prod.fst).Nodup) (c : Collected K)
    (hc : collectPowerIteration p norm conv xsTotal xs fission random = .ok c) :
    ∃ st n snaps, Passes (collectStep p norm xsTotal xs fission) (start norm random) (c.rows + 1) st n snaps ∧
      c.rows + 1 ≤ 101 ∧
      collectSteps p materials norm conv xsTotal xs fission random path
        = saves (scatterList p.cells p.groups path 0 ((List.range (c.rows + 1)).map fun j => (n j, snaps j)) ++
          finalList p.cells p.groups materials p.mm path xs fission c) ∧
      ∀ d', d' = run (collectSteps p materials norm conv xsTotal xs fission random path) d →
        (d'.map Prod.fst).Nodup ∧
        (∀ m ∈ d'.map Prod.fst, globMatch (path ++ "flux_scatter_model".toList) ".npy".toList m = true →
          m ∈ d.map Prod.fst ∨ ∃ j < c.rows + 1, m = scatterName path j) ∧
        (∀ j < c.rows + 1, load d' (scatterName path j) = .ok (.flux (n j) p.cells p.groups (snaps j))) ∧
        (∀ j < 101, c.rows + 1 ≤ j → load d' (scatterName path j) = load d (scatterName path j)) ∧
        load d' (named path "scatter_cross_sections") = .ok (.xs materials p.groups p.groups xs) ∧
        load d' (named path "medium_map") = .ok (.map p.cells p.mm) := by
  obtain ⟨st, n, snaps, hP, hle, hs⟩ := collectSteps_ok p materials norm conv xsTotal xs fission random path c hc
  refine ⟨st, n, snaps, hP, hle, hs, ?_⟩
  obtain ⟨l, hl'⟩ : ∃ l, l = (List.range (c.rows + 1)).map fun j => (n j, snaps j) := ⟨_, rfl⟩
  have hlen : l.length = c.rows + 1 := by rw [hl']; simp
  intro d' hd'
  rw [hs, ← hl'] at hd'
  refine ⟨by rw [hd']; exact nodup_saves _ d hnd, ?_, ?_, ?_, ?_, ?_⟩
  · intro m hm hg
    rw [hd', names_saves, List.map_append, List.mem_append, scatterList_names] at hm
    rcases hm with (⟨i, hi, rfl⟩ | hm) | hm
    · exact Or.inr ⟨0 + i, by omega, rfl⟩
    · rw [finalList_glob p materials xs fission path c m hm] at hg; cases hg
    · exact Or.inl hm
  · intro j hj
    have := load_scatter p.cells p.groups path l 0
      (finalList p.cells p.groups materials p.mm path xs fission c) d j (by omega) (by omega) (by
        intro hm
        have := finalList_glob p materials xs fission path c _ hm
        rw [globMatch_scatter path _ (by omega)] at this
        cases this)
    rw [Nat.zero_add] at this
    rw [hd', this]
    simp [hl']
  · intro j hj hr
    rw [hd']
    refine load_untouched (saves_untouched _ _ ?_) d
    rw [List.map_append, List.mem_append, not_or]
    constructor
    · rw [scatterList_names]
      rintro ⟨i, hi, he⟩
      have := scatterName_inj path j (0 + i) hj (by omega) he
      omega
    · intro hm
      have := finalList_glob p materials xs fission path c _ hm
      rw [globMatch_scatter path _ hj] at this
      cases this
  · rw [hd', finalList, List.append_cons, List.append_cons]
    refine load_after_save _ _ _ _ ?_ d
    simp only [List.map_cons, List.map_nil, List.mem_cons, List.not_mem_nil, or_false, not_or]
    exact named_ne _ _ _ (by decide)
  · rw [hd', finalList, List.append_cons, List.append_cons, List.append_cons]
    refine load_after_save _ _ _ _ ?_ d
    simp

section Twice

variable (p₂ : Problem K) (materials₂ : ℕ) (norm₂ : (ℕ → ℕ → K) → K) (xsTotal₂ : ℕ → ℕ → K) (xs₂ : ℕ → ℕ → ℕ → K)
  (fission₂ : Fission K) (random₂ : ℕ → ℕ → K)

/-- C200 is violated: a second run in the same directory that needs fewer passes than the first leaves the first run's
later snapshots behind, and `clean_data_scatter` appends them to the second run's rows, with reaction rates made from the
first run's fluxes and the second run's cross sections and medium map. -/
theorem C200_violation_stale (d : Disk (NpArray K)) (hnd : (d.map Prod.fst).Nodup)
    (hfresh : ∀ m ∈ d.map Prod.fst, globMatch (path ++ "flux_scatter_model".toList) ".npy".toList m = false)
    (c : Collected K) (hc : collectPowerIteration p norm conv xsTotal xs fission random = .ok c)
    (c₂ : Collected K) (hc₂ : collectPowerIteration p₂ norm₂ conv xsTotal₂ xs₂ fission₂ random₂ = .ok c₂)
    (hcells : p.cells = p₂.cells) (hgroups : p.groups = p₂.groups) (hfewer : c₂.rows < c.rows)
    (hmat : ∀ i < p₂.cells, p₂.mm i < materials₂) (nLabels : ℕ) (hl : p₂.cells ≤ nLabels) (labels : ℕ → K) :
    ∃ st n snaps st₂ n₂ snaps₂,
      Passes (collectStep p norm xsTotal xs fission) (start norm random) (c.rows + 1) st n snaps ∧
      Passes (collectStep p₂ norm₂ xsTotal₂ xs₂ fission₂) (start norm₂ random₂) (c₂.rows + 1) st₂ n₂ snaps₂ ∧
      scatterRows path nLabels labels
          (run (collectSteps p₂ materials₂ norm₂ conv xsTotal₂ xs₂ fission₂ random₂ path)
            (run (collectSteps p materials norm conv xsTotal xs fission random path) d))
        = .ok ((List.range (c.rows + 1)).flatMap fun j => if j < c₂.rows + 1
          then combineFluxReaction (n₂ j) p₂.cells p₂.groups (snaps₂ j) xs₂ p₂.mm labels
          else combineFluxReaction (n j) p₂.cells p₂.groups (snaps j) xs₂ p₂.mm labels) := by
  obtain ⟨st, n, snaps, hP, hle, _, h1⟩ := collect_dir p materials norm conv xsTotal xs fission random path d hnd c hc
  obtain ⟨hnd', hg1, hl1, _, _, _⟩ := h1 _ rfl
  obtain ⟨st₂, n₂, snaps₂, hP₂, hle₂, _, h2⟩ := collect_dir p₂ materials₂ norm₂ conv xsTotal₂ xs₂ fission₂ random₂ path
    (run (collectSteps p materials norm conv xsTotal xs fission random path) d) hnd' c₂ hc₂
  obtain ⟨hnd2, hg2, hl2, ho2, hC2, hD2⟩ := h2 _ rfl
  refine ⟨st, n, snaps, st₂, n₂, snaps₂, hP, hP₂, ?_⟩
  have := scatterRows_of path _ hnd2 (c.rows + 1) p₂.cells p₂.groups materials₂ hle xs₂ p₂.mm
    (fun j => if j < c₂.rows + 1 then n₂ j else n j) (fun j => if j < c₂.rows + 1 then snaps₂ j else snaps j)
    (by
      intro m hm hg
      rcases hg2 m hm hg with hm | ⟨j, hj, rfl⟩
      · rcases hg1 m hm hg with hm | h
        · rw [hfresh m hm] at hg; cases hg
        · exact h
      · exact ⟨j, by omega, rfl⟩)
    (by
      intro j hj
      by_cases hj2 : j < c₂.rows + 1
      · simp only [if_pos hj2]; exact hl2 j hj2
      · simp only [if_neg hj2]
        rw [ho2 j (by omega) (by omega), hl1 j hj, hcells, hgroups])
    hC2 hD2 hmat nLabels hl labels
  rw [this]
  congr 2
  funext j
  split_ifs <;> rfl

/-- C200 is violated: a second run killed after its first `q` passes leaves a directory from which `clean_data_scatter`
builds training data without an error: the second run's fluxes with the first run's cross sections. -/
theorem C200_violation_crash (d : Disk (NpArray K)) (hnd : (d.map Prod.fst).Nodup)
    (hfresh : ∀ m ∈ d.map Prod.fst, globMatch (path ++ "flux_scatter_model".toList) ".npy".toList m = false)
    (c : Collected K) (hc : collectPowerIteration p norm conv xsTotal xs fission random = .ok c)
    (c₂ : Collected K) (hc₂ : collectPowerIteration p₂ norm₂ conv xsTotal₂ xs₂ fission₂ random₂ = .ok c₂)
    (hcells : p.cells = p₂.cells) (hgroups : p.groups = p₂.groups) (q : ℕ) (hq : q ≤ c₂.rows + 1)
    (hmat : ∀ i < p.cells, p.mm i < materials) (nLabels : ℕ) (hl : p.cells ≤ nLabels) (labels : ℕ → K) :
    ∃ st n snaps st₂ n₂ snaps₂,
      Passes (collectStep p norm xsTotal xs fission) (start norm random) (c.rows + 1) st n snaps ∧
      Passes (collectStep p₂ norm₂ xsTotal₂ xs₂ fission₂) (start norm₂ random₂) (c₂.rows + 1) st₂ n₂ snaps₂ ∧
      scatterRows path nLabels labels
          (run ((collectSteps p₂ materials₂ norm₂ conv xsTotal₂ xs₂ fission₂ random₂ path).take (2 * q))
            (run (collectSteps p materials norm conv xsTotal xs fission random path) d))
        = .ok ((List.range (max q (c.rows + 1))).flatMap fun j => if j < q
          then combineFluxReaction (n₂ j) p.cells p.groups (snaps₂ j) xs p.mm labels
          else combineFluxReaction (n j) p.cells p.groups (snaps j) xs p.mm labels) := by
  obtain ⟨st, n, snaps, hP, hle, _, h1⟩ := collect_dir p materials norm conv xsTotal xs fission random path d hnd c hc
  obtain ⟨hnd', hg1, hl1, _, hC1, hD1⟩ := h1 _ rfl
  obtain ⟨st₂, n₂, snaps₂, hP₂, hle₂, hs₂⟩ := collectSteps_ok p₂ materials₂ norm₂ conv xsTotal₂ xs₂ fission₂ random₂
    path c₂ hc₂
  refine ⟨st, n, snaps, st₂, n₂, snaps₂, hP, hP₂, ?_⟩
  obtain ⟨d1, hd1⟩ : ∃ d1, d1 = run (collectSteps p materials norm conv xsTotal xs fission random path) d := ⟨_, rfl⟩
  rw [← hd1] at hnd' hg1 hl1 hC1 hD1 ⊢
  obtain ⟨l, hl'⟩ : ∃ l, l = (List.range q).map fun j => (n₂ j, snaps₂ j) := ⟨_, rfl⟩
  have hlen : l.length = q := by rw [hl']; simp
  have htake : (collectSteps p₂ materials₂ norm₂ conv xsTotal₂ xs₂ fission₂ random₂ path).take (2 * q)
      = saves (scatterList p₂.cells p₂.groups path 0 l) := by
    rw [hs₂, take_saves, List.take_append_of_le_length, take_scatterList, ← List.map_take, List.take_range,
      min_eq_left hq, hl']
    rw [scatterList_length]
    simpa using hq
  rw [htake]
  have hC2 : ∀ s : String, "flux_scatter_model".toList.isPrefixOf (s.toList ++ ".npy".toList) = false →
      load (run (saves (scatterList p₂.cells p₂.groups path 0 l)) d1) (named path s) = load d1 (named path s) :=
    fun s hs => load_untouched (saves_untouched _ _ (map_not_scatter path _ _ l (by omega) s hs)) d1
  have := scatterRows_of path _ (nodup_saves (scatterList p₂.cells p₂.groups path 0 l) d1 hnd') (max q (c.rows + 1))
    p.cells p.groups materials (by omega) xs p.mm
    (fun j => if j < q then n₂ j else n j) (fun j => if j < q then snaps₂ j else snaps j)
    (by
      intro m hm hg
      rw [names_saves, scatterList_names] at hm
      rcases hm with ⟨i, hi, rfl⟩ | hm
      · exact ⟨0 + i, by omega, rfl⟩
      · rcases hg1 m hm hg with hm | ⟨j, hj, rfl⟩
        · rw [hfresh m hm] at hg; cases hg
        · exact ⟨j, by omega, rfl⟩)
    (by
      intro j hj
      by_cases hj2 : j < q
      · simp only [if_pos hj2]
        have := load_scatter p₂.cells p₂.groups path l 0 [] d1 j (by omega) (by omega) (by simp)
        rw [Nat.zero_add, List.append_nil] at this
        rw [this, hcells, hgroups]
        simp [hl']
      · simp only [if_neg hj2]
        rw [← hl1 j (by omega)]
        refine load_untouched (saves_untouched _ _ ?_) d1
        rw [scatterList_names]
        rintro ⟨i, hi, he⟩
        have := scatterName_inj path j (0 + i) (by omega) (by omega) he
        omega)
    (by rw [hC2 _ (by decide)]; exact hC1) (by rw [hC2 _ (by decide)]; exact hD1) hmat nLabels hl labels
  rw [this]
  congr 2
  funext j
  split_ifs <;> rfl

end Twice

/-! ### C201: training targets of problems with a fission spectrum -/

/-- C201 (what holds): with a fission matrix the target of every row is the fission emission, `keff` times the source the
solver uses in that cell (`fission_mat_prod`). -/
theorem C201_matrix [IsStrictOrderedRing K] (flux : ℕ → ℕ → K) (mm : ℕ → ℕ) (xsF : ℕ → ℕ → ℕ → K) (groups i h : ℕ)
    (hh : h < groups) (hpos : ∀ h < groups, ∀ g < groups, 0 ≤ xsF (mm i) h g) (keff : K) (hk : keff ≠ 0)
    (a : ℕ → ℕ → ℕ → K) (cc : ℕ) (ha : a cc i = flux i) (labels : ℕ → K) :
    (dataRow groups a xsF mm labels cc i).rate h
      = keff * (fissionSource groups mm (.matrix xsF) flux keff).val i 0 h := by
  simp only [dataRow, fissionSource, fissionMatProd, accum_eq_sum, ha]
  split_ifs with hz
  · rw [matSum_eq] at hz
    have h1 := (Finset.sum_eq_zero_iff_of_nonneg fun h hh => Finset.sum_nonneg fun g hg =>
      hpos h (mem_range.mp hh) g (mem_range.mp hg)).mp hz h (mem_range.mpr hh)
    have h2 := (Finset.sum_eq_zero_iff_of_nonneg fun g hg => hpos h hh g (mem_range.mp hg)).mp h1
    rw [mul_zero]
    exact Finset.sum_eq_zero fun g hg => by rw [h2 g hg, mul_zero]
  · rw [mul_div_cancel₀ _ hk]

/-- C201 is violated: with `chi` the target is the same in every group, the total production, and equals the fission
emission only in groups of spectrum one; summed over the groups it is the production times the number of groups. -/
theorem C201_violation (flux : ℕ → ℕ → K) (mm : ℕ → ℕ) (chi nu : ℕ → ℕ → K) (groups i : ℕ) (keff : K) (hk : keff ≠ 0)
    (a : ℕ → ℕ → ℕ → K) (cc : ℕ) (ha : a cc i = flux i) (labels : ℕ → K)
    (hprod : ∑ g ∈ range groups, flux i g * nu (mm i) g ≠ 0) (hchi : ∑ h ∈ range groups, chi (mm i) h = 1) :
    (∀ h, (vectorRow groups a nu mm labels cc i).rate h
        = keff * (fissionSource groups mm (.vector chi nu) flux keff).val i 0 h ↔ chi (mm i) h = 1) ∧
    ∑ h ∈ range groups, (vectorRow groups a nu mm labels cc i).rate h
      = groups * ∑ h ∈ range groups, keff * (fissionSource groups mm (.vector chi nu) flux keff).val i 0 h := by
  have hv : ∀ h, keff * (fissionSource groups mm (.vector chi nu) flux keff).val i 0 h
      = chi (mm i) h * ∑ g ∈ range groups, flux i g * nu (mm i) g := by
    intro h
    simp only [fissionSource, fissionVecProd, accum_eq_sum, hchi, one_ne_zero, if_false]
    rw [mul_div_cancel₀ _ hk, Finset.mul_sum]
    exact Finset.sum_congr rfl fun g _ => by ring
  refine ⟨fun h => ?_, ?_⟩
  · rw [hv]
    simp only [vectorRow, ha]
    constructor
    · intro he
      have : (1 - chi (mm i) h) * ∑ g ∈ range groups, flux i g * nu (mm i) g = 0 := by linear_combination he
      rcases mul_eq_zero.mp this with h0 | h0
      · linear_combination -h0
      · exact absurd h0 hprod
    · intro he; rw [he, one_mul]
  · simp only [hv, vectorRow, ha, ← Finset.sum_mul, hchi, one_mul, sum_const, card_range, nsmul_eq_mul]

end Rows

/-! ### C202: deeponet_memmap -/

section Memmap

variable {K : Type} [Field K] [LinearOrder K]

/-- The same rows: the sizes, and every entry inside them. -/
structure SameRows (a b : MemRows K) : Prop where
  samples : a.samples = b.samples
  fluxes : a.fluxes = b.fluxes
  labels : a.labels = b.labels
  outputs : a.outputs = b.outputs
  flux : ∀ r < b.samples, ∀ j < b.fluxes, a.flux r j = b.flux r j
  label : ∀ r < b.samples, ∀ j < b.labels, a.label r j = b.label r j
  y : ∀ r < b.samples, ∀ j < b.outputs, a.y r j = b.y r j

theorem record_div (w r o : ℕ) (h : o < w) : (r * w + o) / w = r ∧ (r * w + o) % w = o := by
  constructor
  · rw [mul_comm, Nat.mul_add_div (by omega), Nat.div_eq_of_lt h, add_zero]
  · rw [mul_comm, Nat.mul_add_mod, Nat.mod_eq_of_lt h]

theorem stored_flux (m : MemRows K) (s r j : ℕ) (hj : j < m.fluxes) :
    m.stored s (r * m.width + j) = if 1 ≤ s then m.flux r j else 0 := by
  obtain ⟨h1, h2⟩ := record_div m.width r j (by unfold MemRows.width; omega)
  simp only [MemRows.stored, h1, h2, if_pos hj]

theorem stored_label (m : MemRows K) (s r j : ℕ) (hj : j < m.labels) :
    m.stored s (r * m.width + m.fluxes + j) = if 2 ≤ s then m.label r j else 0 := by
  obtain ⟨h1, h2⟩ := record_div m.width r (m.fluxes + j) (by unfold MemRows.width; omega)
  rw [Nat.add_assoc]
  simp only [MemRows.stored, h1, h2]
  rw [if_neg (by omega), if_pos (by omega), Nat.add_sub_cancel_left]

theorem stored_y (m : MemRows K) (s r j : ℕ) (hj : j < m.outputs) :
    m.stored s (r * m.width + m.fluxes + m.labels + j) = if 3 ≤ s then m.y r j else 0 := by
  obtain ⟨h1, h2⟩ := record_div m.width r (m.fluxes + m.labels + j) (by unfold MemRows.width; omega)
  rw [Nat.add_assoc, Nat.add_assoc, ← Nat.add_assoc m.fluxes]
  simp only [MemRows.stored, h1, h2]
  rw [if_neg (by omega), if_neg (by omega)]
  congr 2
  omega

/-- Reading with sizes that fit a data file written up to `stage`. -/
theorem memmapRead_stage (name : Name) (d : Disk (MemFile K)) (m : MemRows K) (stage : ℕ)
    (h1 : load d (pickleName name) = .ok (.sizes m.samples m.fluxes m.labels m.outputs))
    (h2 : load d name = .ok (.floats (m.samples * m.width) (m.stored stage))) :
    ∃ r, memmapRead name d = .ok r ∧
      SameRows r { m with
        flux := fun i j => if 1 ≤ stage then m.flux i j else 0
        label := fun i j => if 2 ≤ stage then m.label i j else 0
        y := fun i j => if 3 ≤ stage then m.y i j else 0 } := by
  unfold memmapRead
  simp only [h1, h2]
  rw [if_neg (by unfold MemRows.width; omega)]
  exact ⟨_, rfl, rfl, rfl, rfl, rfl, fun i _ j hj => stored_flux m stage i j hj,
    fun i _ j hj => stored_label m stage i j hj, fun i _ j hj => stored_y m stage i j hj⟩

/-- C202 (what holds): without a companion file of an earlier call, a crash at any point of `deeponet_memmap` leaves files
that cannot be opened, and after a completed call the rows read are the rows written, whatever was there before. -/
theorem C202_fresh (name : Name) (hname : pickleName name ≠ name) (m : MemRows K) (d : Disk (MemFile K)) :
    (d.lookup (pickleName name) = none → ∀ k < (memmapSteps name m).length,
      ∃ e, memmapRead name (run ((memmapSteps name m).take k) d) = .error e) ∧
    ∃ r, memmapRead name (run (memmapSteps name m) d) = .ok r ∧ SameRows r m := by
  constructor
  · intro hd k hk
    have key : ∃ e, load (run ((memmapSteps name m).take k) d) (pickleName name) = .error e := by
      by_cases h5 : k = 5
      · subst h5
        refine ⟨.valueError, ?_⟩
        show load (put _ (pickleName name) .torn) (pickleName name) = _
        simp [load, lookup_put_self]
      · refine ⟨.fileNotFound, ?_⟩
        have hk : k < 5 := by simp only [memmapSteps, List.length_cons, List.length_nil] at hk; omega
        have : (run ((memmapSteps name m).take k) d).lookup (pickleName name) = none := by
          rw [← hd]
          refine run_untouched _ _ (fun s hs d => ?_) d
          have hs : s ∈ (memmapSteps name m).take 4 :=
            (List.take_prefix_take_left (by omega : k ≤ 4)).subset hs
          simp only [memmapSteps, List.take_succ_cons, List.take_zero, List.mem_cons, List.not_mem_nil,
            or_false] at hs
          rcases hs with rfl | rfl | rfl | rfl <;> exact lookup_put_ne _ _ _ _ hname
        simp [load, this]
    obtain ⟨e, he⟩ := key
    exact ⟨e, by unfold memmapRead; rw [he]⟩
  · obtain ⟨r, h1, h2⟩ := memmapRead_stage name (run (memmapSteps name m) d) m 3
      (by
        show load (put _ (pickleName name) (.whole _)) (pickleName name) = _
        simp [load, lookup_put_self])
      (by
        show load (put (put (put _ name _) (pickleName name) .torn) (pickleName name) (.whole _)) name = _
        unfold load
        rw [lookup_put_ne _ _ _ _ hname.symm, lookup_put_ne _ _ _ _ hname.symm, lookup_put_self])
    refine ⟨r, h1, ?_⟩
    simpa using h2

/-- C202 is violated when the file is written again: a crash of the second call (of the same sizes) before its companion
file is touched leaves files that open without an error, with zeros in the columns not yet written (`stage` 0: all of
them; 1: the labels and targets; 2: the targets). -/
theorem C202_violation_rewrite (name : Name) (hname : pickleName name ≠ name) (m m' : MemRows K) (d : Disk (MemFile K))
    (hs : m.samples = m'.samples) (hf : m.fluxes = m'.fluxes) (hl : m.labels = m'.labels) (hy : m.outputs = m'.outputs)
    (stage : ℕ) (hstage : stage < 4) :
    ∃ r, memmapRead name (run ((memmapSteps name m').take (stage + 1)) (run (memmapSteps name m) d)) = .ok r ∧
      SameRows r { m' with
        flux := fun i j => if 1 ≤ stage then m'.flux i j else 0
        label := fun i j => if 2 ≤ stage then m'.label i j else 0
        y := fun i j => if 3 ≤ stage then m'.y i j else 0 } := by
  refine memmapRead_stage name _ m' stage ?_ ?_
  · rw [← hs, ← hf, ← hl, ← hy]
    have : load (run (memmapSteps name m) d) (pickleName name)
        = .ok (.sizes m.samples m.fluxes m.labels m.outputs) := by
      show load (put _ (pickleName name) (.whole _)) (pickleName name) = _
      simp [load, lookup_put_self]
    rw [← this]
    refine load_untouched (fun s hs d => ?_) _
    have hs : s ∈ (memmapSteps name m').take 4 := (List.take_prefix_take_left (by omega : stage + 1 ≤ 4)).subset hs
    simp only [memmapSteps, List.take_succ_cons, List.take_zero, List.mem_cons, List.not_mem_nil, or_false] at hs
    rcases hs with rfl | rfl | rfl | rfl <;> exact lookup_put_ne _ _ _ _ hname
  · have : stage = 0 ∨ stage = 1 ∨ stage = 2 ∨ stage = 3 := by omega
    rcases this with rfl | rfl | rfl | rfl
    all_goals
      show load (put _ name (.whole _)) name = _
      simp [load, lookup_put_self]

end Memmap

/-! ### C203: checkpoints and models -/

/-- C203 (what holds): whatever the crash point, reading a checkpoint afterwards gives the old one, the new one or an
error; once the write has ended it is the new one. -/
theorem C203_checkpoint {C : Type} (name : Name) (new : C) (d : Disk C) (k : ℕ) :
    let d' := run ((checkpointSteps name new).take k) d
    (load d' name = load d name ∨ load d' name = .ok new ∨ ∃ e, load d' name = .error e) ∧
    (2 ≤ k → load d' name = .ok new) ∧ ∀ other ≠ name, load d' other = load d other := by
  refine ⟨?_, fun hk => ?_, fun other ho => ?_⟩
  · rcases k with _ | _ | k
    · exact Or.inl rfl
    · refine Or.inr (Or.inr ⟨.valueError, ?_⟩)
      show load (put d name .torn) name = _
      simp [load, lookup_put_self]
    · refine Or.inr (Or.inl ?_)
      rw [List.take_of_length_le (by simp [checkpointSteps, save])]
      show load (put _ name (.whole new)) name = _
      simp [load, lookup_put_self]
  · rw [List.take_of_length_le (by simpa [checkpointSteps, save] using hk)]
    show load (put _ name (.whole new)) name = _
    simp [load, lookup_put_self]
  · refine load_untouched (fun s hs d => ?_) d
    have hs := List.mem_of_mem_take hs
    simp only [checkpointSteps, save, List.mem_cons, List.not_mem_nil, or_false] at hs
    rcases hs with rfl | rfl <;> exact lookup_put_ne _ _ _ _ ho

/-- C203 is violated: the checkpoint is not replaced atomically: for every old checkpoint there is a crash point after
which neither the old nor the new one can be read. -/
theorem C203_violation_lost {C : Type} (name : Name) (old new : C) (d : Disk C) (hold : load d name = .ok old) :
    ∃ k, (∃ e, load (run ((checkpointSteps name new).take k) d) name = .error e) ∧
      load (run ((checkpointSteps name new).take 0) d) name = .ok old := by
  refine ⟨1, ⟨.valueError, ?_⟩, hold⟩
  show load (put d name .torn) name = _
  simp [load, lookup_put_self]

/-- C203 is violated: a crash between the two files of `save_model` pairs the new weights with the metrics of the model
saved before under that name. -/
theorem C203_violation_mixed {W M : Type} (name : Name) (w : W) (m : M) (m' : M) (d : Disk (W ⊕ M))
    (hold : load d (name ++ "-loss-metrics.npz".toList) = .ok (.inr m')) :
    ∃ k < (saveModelSteps name w m).length,
      load (run ((saveModelSteps name w m).take k) d) (name ++ ".pt".toList) = .ok (.inl w) ∧
      load (run ((saveModelSteps name w m).take k) d) (name ++ "-loss-metrics.npz".toList) = .ok (.inr m') := by
  have hne : name ++ "-loss-metrics.npz".toList ≠ name ++ ".pt".toList :=
    fun h => absurd (List.append_cancel_left h) (by decide)
  refine ⟨2, by simp [saveModelSteps, save], ?_, ?_⟩
  · show load (put _ (name ++ ".pt".toList) (.whole _)) (name ++ ".pt".toList) = _
    simp only [load, lookup_put_self]
  · show load (put (put d (name ++ ".pt".toList) .torn) (name ++ ".pt".toList) (.whole (.inl w)))
      (name ++ "-loss-metrics.npz".toList) = _
    rw [← hold]
    unfold load
    rw [lookup_put_ne _ _ _ _ hne, lookup_put_ne _ _ _ _ hne]

/-! ### Examples -/

/-- One cell, two groups; one inner pass. -/
def exFiles : Problem ℚ := { exCrit with convIn := fun _ _ => true, convOut := fun _ _ => true }

/-- A run from fluxes 1 and `b`; it stops when the first flux changes by less than a tenth. -/
def exRun (b : ℚ) (xs : ℚ) : Except PyErr (Collected ℚ) :=
  collectPowerIteration exFiles (fun f => |f 0 0| + |f 0 1|) (fun a b => decide (|a 0 0 - b 0 0| < 1 / 10)) (fun _ _ => 1)
    (fun _ _ _ => xs) (.matrix fun _ _ _ => 5 / 4) fun _ g => if g = 0 then 1 else b

theorem exRun_rows : (exRun 2 (1 / 4)).toOption.map (·.rows) = some 1 ∧
    (exRun 1 (1 / 8)).toOption.map (·.rows) = some 0 := by decide +kernel

theorem exRun_ok (b xs : ℚ) (n : ℕ) (h : (exRun b xs).toOption.map (·.rows) = some n) :
    ∃ c, exRun b xs = .ok c ∧ c.rows = n := by
  rcases hr : exRun b xs with e | c
  · rw [hr] at h; cases h
  · rw [hr] at h; exact ⟨c, rfl, Option.some.inj h⟩

-- a run that needs two passes, then one that needs one, in the same directory (C199, C200)
example : ∃ c c₂ : Collected ℚ, exRun 2 (1 / 4) = .ok c ∧ exRun 1 (1 / 8) = .ok c₂ ∧ c₂.rows < c.rows := by
  obtain ⟨c, h1, h2⟩ := exRun_ok _ _ _ exRun_rows.1
  obtain ⟨c₂, h3, h4⟩ := exRun_ok _ _ _ exRun_rows.2
  exact ⟨c, c₂, h1, h3, by omega⟩

example (path : Name) (nLabels : ℕ) (labels : ℕ → ℚ) (k : ℕ) (hk : k < 12) :=
  C199_crash exFiles 1 (fun f => |f 0 0| + |f 0 1|) (fun a b => decide (|a 0 0 - b 0 0| < 1 / 10)) (fun _ _ => 1)
    (fun _ _ _ => 1 / 4) (.matrix fun _ _ _ => 5 / 4) (fun _ g => if g = 0 then 1 else 2) path [] rfl k (by
      obtain ⟨c, h1, h2⟩ := exRun_ok _ _ _ exRun_rows.1
      obtain ⟨st, n, snaps, _, _, h⟩ := collectSteps_ok exFiles 1 (fun f => |f 0 0| + |f 0 1|)
        (fun a b => decide (|a 0 0 - b 0 0| < 1 / 10)) (fun _ _ => 1) (fun _ _ _ => 1 / 4) (.matrix fun _ _ _ => 5 / 4)
        (fun _ g => if g = 0 then 1 else 2) path c h1
      left
      rw [h, saves_length, List.length_append, scatterList_length, h2]
      simp [finalList]; omega) nLabels labels true none

example (path : Name) (labels : ℕ → ℚ) : ∃ rows, scatterRows path 1 labels
    (run (collectSteps exFiles 1 (fun f => |f 0 0| + |f 0 1|) (fun a b => decide (|a 0 0 - b 0 0| < 1 / 10)) (fun _ _ => 1)
      (fun _ _ _ => 1 / 4) (.matrix fun _ _ _ => 5 / 4) (fun _ g => if g = 0 then 1 else 2) path) []) = .ok rows := by
  obtain ⟨c, h1, h2⟩ := exRun_ok _ _ _ exRun_rows.1
  obtain ⟨⟨_, _, _, _, h⟩, _⟩ := C199_complete exFiles 1 (fun f => |f 0 0| + |f 0 1|)
    (fun a b => decide (|a 0 0 - b 0 0| < 1 / 10)) (fun _ _ => 1) (fun _ _ _ => 1 / 4) (.matrix fun _ _ _ => 5 / 4)
    (fun _ g => if g = 0 then 1 else 2) path [] (by simp) c h1 (by simp) (fun _ _ => by simp [exFiles, exCrit]) 1
    (by simp [exFiles, exCrit]) labels
  exact ⟨_, h⟩

-- C201: two groups, half the neutrons born in each
example := C201_violation (K := ℚ) (fun _ _ => 1) (fun _ => 0) (fun _ _ => 1 / 2) (fun _ _ => 1) 2 0 1 (by norm_num)
  (fun _ _ _ => 1) 0 rfl (fun _ => 0) (by norm_num) (by norm_num)

example := C201_matrix (K := ℚ) (fun _ _ => 1) (fun _ => 0) (fun _ _ _ => 1 / 2) 2 0 1 (by omega)
  (fun _ _ _ _ => by norm_num) 1 (by norm_num) (fun _ _ _ => 1) 0 rfl (fun _ => 0)

-- C202: the name has a companion
example : pickleName "a_memmap.dat".toList ≠ "a_memmap.dat".toList := by decide

-- C203: an old checkpoint is there
example := C203_violation_lost "m.pt".toList 1 2 [("m.pt".toList, .whole 1)] rfl

example := C203_violation_mixed (W := ℕ) (M := ℕ) "m".toList 2 4 3 [("m-loss-metrics.npz".toList, .whole (.inr 3))] rfl

end Discrete1.Props
