import Verif.Model.Datasets
import Mathlib.Data.List.Range
import Mathlib.Data.Rat.Floor
import Mathlib.Algebra.Order.Field.Basic
import Mathlib.Tactic.Linarith
import Mathlib.Tactic.NormNum
import Mathlib.Tactic.Push

set_option linter.unusedSectionVars false
set_option linter.unusedSimpArgs false

/-!
# C59, C60, C63, C83: data sets over memmap files
-/

namespace Discrete1.Props

open Discrete1.Ml

/-! ### Slices of a file -/

theorem filter_slice (n a k : ℕ) (h : a + k ≤ n) :
    ((List.range n).filter fun r => decide (a ≤ r ∧ r < a + k)) = List.range' a k := by
  obtain ⟨c, rfl⟩ := Nat.exists_eq_add_of_le h
  have : List.range (a + k + c) = List.range' 0 a ++ List.range' a k ++ List.range' (a + k) c := by
    rw [List.range_eq_range']
    have h1 := List.range'_append_1 (s := 0) (m := a) (n := k)
    have h2 := List.range'_append_1 (s := 0) (m := a + k) (n := c)
    simp only [Nat.zero_add] at h1 h2
    rw [h1, h2]
  rw [this, List.filter_append, List.filter_append]
  have e1 : (List.range' 0 a).filter (fun r => decide (a ≤ r ∧ r < a + k)) = [] := by
    rw [List.filter_eq_nil_iff]
    intro r hr
    have := List.mem_range'_1.mp hr
    simp only [decide_eq_true_eq]; omega
  have e2 : (List.range' a k).filter (fun r => decide (a ≤ r ∧ r < a + k)) = List.range' a k := by
    rw [List.filter_eq_self]
    intro r hr
    have := List.mem_range'_1.mp hr
    simp only [decide_eq_true_eq]; omega
  have e3 : (List.range' (a + k) c).filter (fun r => decide (a ≤ r ∧ r < a + k)) = [] := by
    rw [List.filter_eq_nil_iff]
    intro r hr
    have := List.mem_range'_1.mp hr
    simp only [decide_eq_true_eq]; omega
  rw [e1, e2, e3]; simp

theorem blocks_flatMap (s k m : ℕ) :
    ((List.range m).flatMap fun b => List.range' (s + b * k) k) = List.range' s (m * k) := by
  induction m with
  | zero => simp
  | succ m ih =>
    rw [List.range_succ, List.flatMap_append, ih, List.flatMap_singleton, List.range'_append_1]
    congr 1; ring

theorem flatMap_congr_mem {α β : Type*} (l : List α) (f g : α → List β) (h : ∀ a ∈ l, f a = g a) :
    l.flatMap f = l.flatMap g := by
  induction l with
  | nil => rfl
  | cons a l ih =>
    rw [List.flatMap_cons, List.flatMap_cons, h a (by simp), ih fun x hx => h x (by simp [hx])]

/-- C59 (one data set): with `start <= end <= rows`, `end > 0` and a positive batch size the data set has
`m = (end - start) / batch` items; item `b` is exactly the `batch` consecutive rows starting at
`start + b * batch`; whatever the order in which a sampler visits the items, the rows served are those of
`[start, start + m * batch)`, each once; fewer than `batch` rows of the part are missed. -/
theorem C59_batches (n batch start stop : ℕ) (hb : 0 < batch) (h1 : start ≤ stop) (h2 : stop ≤ n)
    (h3 : 0 < stop) :
    ∃ d, mkDataset n batch start (some stop) = .ok d ∧ ∃ m, d.len = .ok m ∧
      (∀ b < m, d.getItem b = .ok (List.range' (start + b * batch) batch)) ∧
      (∀ order : List ℕ, order.Perm (List.range m) →
        (d.served order).Perm (List.range' start (m * batch))) ∧
      start + m * batch ≤ stop ∧ stop < start + m * batch + batch := by
  obtain ⟨e, rfl⟩ : ∃ e, stop = e + 1 := ⟨stop - 1, by omega⟩
  refine ⟨⟨n, batch, start, e + 1, (((e + 1 : ℕ) : ℤ) - (start : ℤ)) / (batch : ℤ)⟩, ?_, ?_⟩
  · simp only [mkDataset, hb.ne', if_false]
  have hq : ((((e + 1 : ℕ) : ℤ) - (start : ℤ)) / (batch : ℤ)) = (((e + 1 - start) / batch : ℕ) : ℤ) := by
    rw [← Nat.cast_sub h1]; norm_cast
  have hle : (e + 1 - start) / batch * batch ≤ e + 1 - start := Nat.div_mul_le_self _ _
  have hlt : e + 1 - start < (e + 1 - start) / batch * batch + batch := by
    have := Nat.lt_div_mul_add hb (a := e + 1 - start)
    exact this
  have hrow : ∀ b < (e + 1 - start) / batch,
      Dataset.rows ⟨n, batch, start, e + 1, (((e + 1 : ℕ) : ℤ) - (start : ℤ)) / (batch : ℤ)⟩ b
        = List.range' (start + b * batch) batch := by
    intro b hbm
    refine filter_slice n (start + b * batch) batch ?_
    have : (b + 1) * batch ≤ (e + 1 - start) / batch * batch := Nat.mul_le_mul_right _ hbm
    rw [Nat.add_mul] at this
    omega
  refine ⟨(e + 1 - start) / batch, ?_, ?_, ?_, by omega, by omega⟩
  · simp only [Dataset.len, hq, Int.toNat_natCast]
    rw [if_neg (not_lt.mpr (Int.natCast_nonneg _))]
  · intro b hbm
    simp only [Dataset.getItem, hrow b hbm]
  · intro order ho
    refine (ho.flatMap_right _).trans ?_
    rw [flatMap_congr_mem _ _ _ fun b hb => hrow b (List.mem_range.mp hb), blocks_flatMap]

/-- C59 (three parts): when the training part gets at least one row, the three data sets of
`process_data_memmap` serve, in whatever order the samplers visit them, rows of three consecutive disjoint
ranges that cover the file, each row at most once and fewer than `batch` rows of each range missing.
The full property has no condition on the training part; `C59_violation_no_training_row` shows why it is
needed. -/
theorem C59_split_partial {K : Type*} [Field K] [LinearOrder K] [IsStrictOrderedRing K] [FloorRing K]
    (n batch : ℕ) (hb : 0 < batch) (t v : K) (ht : 0 ≤ t) (hv : 0 ≤ v) (htv : t + v ≤ 1)
    (h1 : 1 ≤ t * (n : K)) :
    ∃ (trainEnd valEnd : ℕ) (a b c : Dataset),
      trainEnd ≤ valEnd ∧ valEnd ≤ n ∧
      ((trainEnd : K) ≤ t * n ∧ t * n < trainEnd + 1) ∧
      ((valEnd : K) ≤ (t + v) * n ∧ (t + v) * n < valEnd + 1) ∧
      processDataMemmap n batch t v = .ok (a, b, c) ∧
      ∀ p ∈ [(a, 0, trainEnd), (b, trainEnd, valEnd), (c, valEnd, n)],
        ∃ m, p.1.len = .ok m ∧
          p.2.1 + m * batch ≤ p.2.2 ∧ p.2.2 < p.2.1 + m * batch + batch ∧
          ∀ order : List ℕ, order.Perm (List.range m) →
            (p.1.served order).Perm (List.range' p.2.1 (m * batch)) := by
  have hn0 : (0 : K) ≤ n := Nat.cast_nonneg n
  have f1 : 0 ≤ ⌊t * (n : K)⌋ := Int.floor_nonneg.mpr (mul_nonneg ht hn0)
  have f2 : 0 ≤ ⌊(t + v) * (n : K)⌋ := Int.floor_nonneg.mpr (mul_nonneg (add_nonneg ht hv) hn0)
  obtain ⟨te, hte⟩ := Int.eq_ofNat_of_zero_le f1
  obtain ⟨ve, hve⟩ := Int.eq_ofNat_of_zero_le f2
  have b1 : (te : K) ≤ t * n ∧ t * n < te + 1 := by
    have := Int.floor_le (t * (n : K)); have h' := Int.lt_floor_add_one (t * (n : K))
    rw [hte] at this h'
    exact ⟨by exact_mod_cast this, by exact_mod_cast h'⟩
  have b2 : (ve : K) ≤ (t + v) * n ∧ (t + v) * n < ve + 1 := by
    have := Int.floor_le ((t + v) * (n : K)); have h' := Int.lt_floor_add_one ((t + v) * (n : K))
    rw [hve] at this h'
    exact ⟨by exact_mod_cast this, by exact_mod_cast h'⟩
  have o1 : te ≤ ve := by
    have : t * (n : K) ≤ (t + v) * n := mul_le_mul_of_nonneg_right (by linarith) hn0
    have h' : (te : K) < ve + 1 := by linarith [b1.1, b2.2]
    have : te < ve + 1 := by exact_mod_cast h'
    omega
  have o2 : ve ≤ n := by
    have : (t + v) * (n : K) ≤ 1 * n := mul_le_mul_of_nonneg_right htv hn0
    have h' : (ve : K) ≤ n := by linarith [b2.1]
    exact_mod_cast h'
  have o0 : 0 < te := by
    have h' : (0 : K) < te := by linarith [b1.2]
    exact_mod_cast h'
  obtain ⟨a, ha, ma, hma, -, hpa, hla, hua⟩ := C59_batches n batch 0 te hb (Nat.zero_le _) (by omega) o0
  obtain ⟨b, hb', mb, hmb, -, hpb, hlb, hub⟩ := C59_batches n batch te ve hb o1 o2 (by omega)
  obtain ⟨c, hc, mc, hmc, -, hpc, hlc, huc⟩ := C59_batches n batch ve n hb o2 le_rfl (by omega)
  refine ⟨te, ve, a, b, c, o1, o2, b1, b2, ?_, ?_⟩
  · have e1 : ⌊t * (n : K)⌋.toNat = te := by rw [hte]; rfl
    have e2 : ⌊(t + v) * (n : K)⌋.toNat = ve := by rw [hve]; rfl
    simp only [processDataMemmap, e1, e2, ha, hb', hc, bind, Except.bind]
  · intro p hp
    simp only [List.mem_cons, List.not_mem_nil, or_false] at hp
    rcases hp with rfl | rfl | rfl
    · exact ⟨ma, hma, hla, hua, hpa⟩
    · exact ⟨mb, hmb, hlb, hub, hpb⟩
    · exact ⟨mc, hmc, hlc, huc, hpc⟩

/-- non-vacuity: ten rows, the default fractions, batches of two. -/
example : (1 : ℚ) ≤ (6 / 10) * ((10 : ℕ) : ℚ) ∧ (6 / 10 + 2 / 10 : ℚ) ≤ 1 := by norm_num

/-- C59, the case the property fails in: if the training fraction of the file is less than one row, `int`
gives `end_idx = 0`, which `end_idx or shape[0]` turns into the whole file: the training data set serves every
row of the file, including all validation and test rows. -/
theorem C59_violation_no_training_row {K : Type*} [Field K] [LinearOrder K] [IsStrictOrderedRing K]
    [FloorRing K] (n : ℕ) (hn : 0 < n) (t v : K) (ht : 0 ≤ t) (h1 : t * (n : K) < 1) :
    ∃ a b c, processDataMemmap n 1 t v = .ok (a, b, c) ∧ a.len = .ok n ∧
      ∀ order : List ℕ, order.Perm (List.range n) → (a.served order).Perm (List.range n) := by
  have f0 : ⌊t * (n : K)⌋ = 0 := by
    rw [Int.floor_eq_iff]
    exact ⟨by simpa using mul_nonneg ht (Nat.cast_nonneg n), by simpa using h1⟩
  have e0 : ⌊t * (n : K)⌋.toNat = 0 := by rw [f0]; rfl
  obtain ⟨a, ha, m, hm, -, hp, hl, hu⟩ := C59_batches n 1 0 n one_pos (Nat.zero_le _) le_rfl hn
  have hmn : m = n := by omega
  subst hmn
  have ha' : mkDataset m 1 0 (some 0) = .ok a := by
    rw [← ha]
    obtain ⟨e, rfl⟩ : ∃ e, m = e + 1 := ⟨m - 1, by omega⟩
    rfl
  have hbx : ∀ s e, ∃ d, mkDataset m 1 s e = .ok d := by
    intro s e
    simp only [mkDataset, one_ne_zero, if_false]
    exact ⟨_, rfl⟩
  obtain ⟨b, hb⟩ := hbx 0 (some ⌊(t + v) * (m : K)⌋.toNat)
  obtain ⟨c, hc⟩ := hbx ⌊(t + v) * (m : K)⌋.toNat (some m)
  refine ⟨a, b, c, ?_, hm, ?_⟩
  · simp only [processDataMemmap, e0, ha', hb, hc, bind, Except.bind]
  · intro order ho
    have := hp order ho
    rwa [Nat.mul_one, ← List.range_eq_range'] at this

/-- one sample, the default fractions. -/
example : (0 : ℚ) < 1 ∧ (6 / 10 : ℚ) * ((1 : ℕ) : ℚ) < 1 := by norm_num

/-- C83: indexing a data set never raises, so `for batch in dataset` never ends: after any number of items
the loop is still running, and items from index `len(dataset)` on are rows after the end of the part. -/
theorem C83_violation_iteration_never_ends (d : Dataset) (fuel : ℕ) :
    seqIter d.getItem fuel 0 = ((List.range fuel).map d.rows, none) := by
  have : ∀ fuel i, seqIter d.getItem fuel i = ((List.range' i fuel).map d.rows, none) := by
    intro fuel
    induction fuel with
    | zero => intro i; rfl
    | succ f ih =>
      intro i
      simp only [seqIter, Dataset.getItem]
      rw [ih (i + 1), List.range'_succ, List.map_cons]
  rw [this, List.range_eq_range']

/-- C83: it is only the missing refusal: with an `IndexError` from index `len` on, the same loop would serve exactly the
batches of the part and end. -/
theorem C83_refusal_ends_iteration (d : Dataset) (m fuel : ℕ) (hm : m < fuel) :
    seqIter (fun i => if i < m then d.getItem i else .error .indexError) fuel 0
      = ((List.range m).map d.rows, some none) := by
  have : ∀ k i fuel, i + k = m → k < fuel → seqIter (fun i => if i < m then d.getItem i else .error .indexError) fuel i
      = ((List.range' i k).map d.rows, some none) := by
    intro k
    induction k with
    | zero =>
      intro i fuel hi hf
      obtain ⟨f, rfl⟩ : ∃ f, fuel = f + 1 := ⟨fuel - 1, by omega⟩
      simp only [seqIter, if_neg (show ¬ i < m by omega)]
      rfl
    | succ k ih =>
      intro i fuel hi hf
      obtain ⟨f, rfl⟩ : ∃ f, fuel = f + 1 := ⟨fuel - 1, by omega⟩
      simp only [seqIter, if_pos (show i < m by omega), Dataset.getItem]
      have := ih (i + 1) f (by omega) (by omega)
      simp only [Dataset.getItem] at this
      rw [this, List.range'_succ, List.map_cons]
  rw [this m 0 fuel (by omega) hm, List.range_eq_range']

example (d : Dataset) := C83_refusal_ends_iteration d 3 10 (by norm_num)

/-- C83: the item after the last one of the training part is the first batch of the validation part. -/
theorem C83_violation_next_part (n batch trainEnd : ℕ) (hb : 0 < batch) (h0 : 0 < trainEnd)
    (hdiv : batch ∣ trainEnd) (hn : trainEnd + batch ≤ n) :
    ∃ d m, mkDataset n batch 0 (some trainEnd) = .ok d ∧ d.len = .ok m ∧
      d.getItem m = .ok (List.range' trainEnd batch) := by
  obtain ⟨d, hd, m, hm, -, -, h1, h2⟩ := C59_batches n batch 0 trainEnd hb (Nat.zero_le _) (by omega) h0
  refine ⟨d, m, hd, hm, ?_⟩
  obtain ⟨q, rfl⟩ := hdiv
  have hmq : m = q := by
    simp only [Nat.zero_add] at h1 h2
    have a1 : m ≤ q := Nat.le_of_mul_le_mul_left (by rw [Nat.mul_comm batch m]; exact h1) hb
    have a2 : q < m + 1 := Nat.lt_of_mul_lt_mul_left (a := batch) (by rw [Nat.mul_add]; linarith)
    omega
  subst hmq
  obtain ⟨e, he⟩ : ∃ e, batch * m = e + 1 := ⟨batch * m - 1, by omega⟩
  have : d = ⟨n, batch, 0, e + 1, (((e + 1 : ℕ) : ℤ) - ((0 : ℕ) : ℤ)) / (batch : ℤ)⟩ := by
    rw [he] at hd
    simp only [mkDataset, hb.ne', if_false, Except.ok.injEq] at hd
    exact hd.symm
  rw [this]
  simp only [Dataset.getItem, Dataset.rows, Except.ok.injEq, Nat.zero_add]
  rw [Nat.mul_comm m batch]
  exact filter_slice n (batch * m) batch hn

example : (2 : ℕ) ∣ 6 ∧ 6 + 2 ≤ 10 := by decide

/-! ### C63 -/

/-- C63: with fractions that are not negative and add to at most one, `_create_memmap_datasets` either raises
ValueError (exactly when one of the two parts has no row) or gives a training and a validation set over
consecutive disjoint parts of the file, with at least one full batch each. -/
theorem C63_split_partial {K : Type*} [Field K] [LinearOrder K] [IsStrictOrderedRing K] [FloorRing K]
    (n batch : ℕ) (hb : 0 < batch) (t v : K) (ht : 0 ≤ t) (hv : 0 ≤ v) (htv : t + v ≤ 1) :
    ∃ trainEnd valEnd : ℕ, trainEnd ≤ valEnd ∧ valEnd ≤ n ∧
      ((trainEnd : K) ≤ t * n ∧ t * n < trainEnd + 1) ∧
      ((valEnd : K) ≤ (t + v) * n ∧ (t + v) * n < valEnd + 1) ∧
      (((trainEnd = 0 ∨ valEnd = trainEnd) ∧ createMemmapDatasets n batch t v = .error .valueError) ∨
       (0 < trainEnd ∧ trainEnd < valEnd ∧ ∃ a b bs, createMemmapDatasets n batch t v = .ok (a, b) ∧
        0 < bs ∧ bs ≤ batch ∧
        ∀ p ∈ [(a, 0, trainEnd), (b, trainEnd, valEnd)],
          ∃ m, p.1.len = .ok m ∧ 0 < m ∧
            p.2.1 + m * bs ≤ p.2.2 ∧ p.2.2 < p.2.1 + m * bs + bs ∧
            ∀ order : List ℕ, order.Perm (List.range m) →
              (p.1.served order).Perm (List.range' p.2.1 (m * bs)))) := by
  have hn0 : (0 : K) ≤ n := Nat.cast_nonneg n
  have f1 : 0 ≤ ⌊t * (n : K)⌋ := Int.floor_nonneg.mpr (mul_nonneg ht hn0)
  have f2 : 0 ≤ ⌊(t + v) * (n : K)⌋ := Int.floor_nonneg.mpr (mul_nonneg (add_nonneg ht hv) hn0)
  obtain ⟨te, hte⟩ := Int.eq_ofNat_of_zero_le f1
  obtain ⟨ve, hve⟩ := Int.eq_ofNat_of_zero_le f2
  have b1 : (te : K) ≤ t * n ∧ t * n < te + 1 := by
    have := Int.floor_le (t * (n : K)); have h' := Int.lt_floor_add_one (t * (n : K))
    rw [hte] at this h'
    exact ⟨by exact_mod_cast this, by exact_mod_cast h'⟩
  have b2 : (ve : K) ≤ (t + v) * n ∧ (t + v) * n < ve + 1 := by
    have := Int.floor_le ((t + v) * (n : K)); have h' := Int.lt_floor_add_one ((t + v) * (n : K))
    rw [hve] at this h'
    exact ⟨by exact_mod_cast this, by exact_mod_cast h'⟩
  have o1 : te ≤ ve := by
    have : t * (n : K) ≤ (t + v) * n := mul_le_mul_of_nonneg_right (by linarith) hn0
    have h' : (te : K) < ve + 1 := by linarith [b1.1, b2.2]
    have : te < ve + 1 := by exact_mod_cast h'
    omega
  have o2 : ve ≤ n := by
    have : (t + v) * (n : K) ≤ 1 * n := mul_le_mul_of_nonneg_right htv hn0
    have h' : (ve : K) ≤ n := by linarith [b2.1]
    exact_mod_cast h'
  have e1 : ⌊t * (n : K)⌋.toNat = te := by rw [hte]; rfl
  have e2 : ⌊(t + v) * (n : K)⌋.toNat = ve := by rw [hve]; rfl
  refine ⟨te, ve, o1, o2, b1, b2, ?_⟩
  by_cases h : te = 0 ∨ ve = te
  · left
    refine ⟨h, ?_⟩
    have hlt : min te (ve - te) < 1 := by rcases h with h | h <;> omega
    simp only [createMemmapDatasets, e1, e2, hlt, if_true, throw, throwThe, MonadExceptOf.throw, bind, Except.bind]
  · right
    push Not at h
    have hlt : ¬ min te (ve - te) < 1 := by omega
    have hbs : 0 < min batch (min te (ve - te)) := by omega
    obtain ⟨a, ha, ma, hma, -, hpa, hla, hua⟩ :=
      C59_batches n (min batch (min te (ve - te))) 0 te hbs (Nat.zero_le _) (by omega) (by omega)
    obtain ⟨b, hb', mb, hmb, -, hpb, hlb, hub⟩ :=
      C59_batches n (min batch (min te (ve - te))) te ve hbs o1 o2 (by omega)
    refine ⟨by omega, by omega, a, b, min batch (min te (ve - te)), ?_, hbs, by omega, ?_⟩
    · simp only [createMemmapDatasets, e1, e2, hlt, if_false, ha, hb', bind, Except.bind, pure, Except.pure]
    · intro p hp
      simp only [List.mem_cons, List.not_mem_nil, or_false] at hp
      rcases hp with rfl | rfl
      · refine ⟨ma, hma, ?_, hla, hua, hpa⟩
        by_contra h0
        have : ma = 0 := by omega
        subst this; simp only [Nat.zero_mul] at hua; omega
      · refine ⟨mb, hmb, ?_, hlb, hub, hpb⟩
        by_contra h0
        have : mb = 0 := by omega
        subst this; simp only [Nat.zero_mul] at hub; omega

/-- non-vacuity: twenty rows, 60% / 20%, batches of 100 (cut to 4). -/
example : (0 : ℚ) ≤ 6 / 10 ∧ (0 : ℚ) ≤ 2 / 10 ∧ (6 / 10 + 2 / 10 : ℚ) ≤ 1 := by norm_num

/-- C63: nothing checks that the fractions add to at most one.  If the training part is the whole file,
`_create_memmap_datasets` accepts any positive validation fraction that is worth a row and returns a validation
set whose items hold no row at all. -/
theorem C63_violation_outside_file {K : Type*} [Field K] [LinearOrder K] [IsStrictOrderedRing K] [FloorRing K]
    (n : ℕ) (hn : 0 < n) (v : K) (hv : 1 ≤ v * (n : K)) :
    ∃ a b, createMemmapDatasets n 1 1 v = .ok (a, b) ∧ (∃ m, b.len = .ok m ∧ 0 < m) ∧
      ∀ i, b.getItem i = .ok [] := by
  have hn0 : (0 : K) ≤ n := Nat.cast_nonneg n
  have e1 : ⌊(1 : K) * (n : K)⌋.toNat = n := by simp
  have f2 : ((n : ℤ) + 1) ≤ ⌊(1 + v) * (n : K)⌋ := by
    rw [Int.le_floor]; push_cast; linarith
  obtain ⟨ve, hve⟩ := Int.eq_ofNat_of_zero_le (by omega : (0 : ℤ) ≤ ⌊(1 + v) * (n : K)⌋)
  have e2 : ⌊(1 + v) * (n : K)⌋.toNat = ve := by rw [hve]; rfl
  have hlt : n < ve := by rw [hve] at f2; omega
  obtain ⟨e, rfl⟩ : ∃ e, ve = e + 1 := ⟨ve - 1, by omega⟩
  have hmin : min 1 (min n (e + 1 - n)) = 1 := by omega
  have hnot : ¬ min n (e + 1 - n) < 1 := by omega
  obtain ⟨k, rfl⟩ : ∃ k, n = k + 1 := ⟨n - 1, by omega⟩
  refine ⟨⟨k + 1, 1, 0, k + 1, (((k + 1 : ℕ) : ℤ) - ((0 : ℕ) : ℤ)) / ((1 : ℕ) : ℤ)⟩,
    ⟨k + 1, 1, k + 1, e + 1, (((e + 1 : ℕ) : ℤ) - ((k + 1 : ℕ) : ℤ)) / ((1 : ℕ) : ℤ)⟩, ?_, ?_, ?_⟩
  · simp only [createMemmapDatasets, e1, e2, hnot, if_false, hmin, mkDataset, one_ne_zero, bind, Except.bind,
      pure, Except.pure]
  · refine ⟨e + 1 - (k + 1), ?_, by omega⟩
    simp only [Dataset.len]
    push_cast
    rw [Int.ediv_one, if_neg (by omega)]
    congr 1
    omega
  · intro i
    simp only [Dataset.getItem, Dataset.rows, Except.ok.injEq, List.filter_eq_nil_iff, List.mem_range,
      decide_eq_true_eq]
    intro r hr
    omega

example : (1 : ℚ) ≤ (2 / 10) * ((10 : ℕ) : ℚ) := by norm_num

/-! ### C60 -/

/-- `old` occurs in `s`. -/
def Occurs (old s : List Char) : Prop := ∃ a b, s = a ++ old ++ b

theorem occurs_cons (old s : List Char) (c : Char) (h : Occurs old (c :: s)) :
    old.isPrefixOf (c :: s) = true ∨ Occurs old s := by
  obtain ⟨a, b, hab⟩ := h
  cases a with
  | nil => left; rw [hab]; simp
  | cons x a =>
    right
    simp only [List.cons_append, List.cons.injEq] at hab
    exact ⟨a, b, hab.2⟩

theorem pyReplace_same_iff (old new : List Char) (x y : Char) (o' n' : List Char) (ho : old = x :: o')
    (hn : new = y :: n') (hxy : x ≠ y) (fuel : ℕ) : ∀ s : List Char, s.length ≤ fuel →
    (pyReplace old new fuel s = s ↔ ¬ Occurs old s) := by
  induction fuel with
  | zero =>
    intro s hs
    have : s = [] := List.eq_nil_of_length_eq_zero (by omega)
    subst this
    simp only [pyReplace, true_iff]
    rintro ⟨a, b, hab⟩
    rw [ho] at hab
    simp at hab
  | succ f ih =>
    intro s hs
    cases s with
    | nil =>
      simp only [pyReplace, true_iff]
      rintro ⟨a, b, hab⟩
      rw [ho] at hab
      simp at hab
    | cons c s =>
      rw [pyReplace]
      by_cases hp : old.isPrefixOf (c :: s) = true
      · rw [if_pos hp]
        have hpre := List.isPrefixOf_iff_prefix.mp hp
        obtain ⟨b, hb⟩ := hpre
        constructor
        · intro h
          exfalso
          rw [hn, ← hb, ho] at h
          simp only [List.cons_append, List.cons.injEq] at h
          exact hxy h.1.symm
        · intro h
          exact absurd ⟨[], b, by simpa using hb.symm⟩ h
      · rw [if_neg hp, List.cons.injEq]
        rw [ih s (by simpa using hs)]
        simp only [true_and]
        constructor
        · intro h ho'
          rcases occurs_cons old s c ho' with h' | h'
          · exact hp h'
          · exact h h'
        · rintro h ⟨a, b, hab⟩
          exact h ⟨c :: a, b, by rw [hab]; rfl⟩

/-- The companion name differs from the file name exactly when the file name contains "memmap". -/
theorem pickleName_ne_iff (s : List Char) : pickleName s ≠ s ↔ Occurs "memmap".toList s := by
  have := pyReplace_same_iff "memmap".toList "pickle".toList 'm' 'p' _ _ rfl rfl (by decide) s.length s le_rfl
  unfold pickleName
  rw [Ne, this, not_not]

theorem takeRows_spec {R : Type} (a : List R) (d : R) (idx : List ℕ) (h : ∀ i ∈ idx, i < a.length) :
    takeRows a idx = .ok (idx.map fun i => a.getD i d) := by
  induction idx with
  | nil => rfl
  | cons i idx ih =>
    have hi := h i (by simp)
    simp only [takeRows, List.getElem?_eq_getElem hi, ih fun j hj => h j (by simp [hj]), bind, Except.bind,
      pure, Except.pure, List.map_cons]
    congr 2
    rw [List.getD_eq_getElem?_getD, List.getElem?_eq_getElem hi, Option.getD_some]

theorem zipRows_map {I F L Y : Type} (f : I → F) (l : I → L) (y : I → Y) (idx : List I) :
    zipRows (idx.map f) (idx.map l) (idx.map y) = idx.map fun i => ⟨f i, l i, y i⟩ := by
  induction idx with
  | nil => rfl
  | cons i idx ih => simp only [List.map_cons, zipRows, ih]

theorem map_getD_range {R : Type} (a : List R) (d : R) : (List.range a.length).map (fun i => a.getD i d) = a := by
  apply List.ext_getElem
  · simp
  · intro i h1 h2
    simp only [List.getElem_map, List.getElem_range]
    rw [List.getD_eq_getElem?_getD, List.getElem?_eq_getElem h2, Option.getD_some]

/-- What a shuffle must do: return the given indices, each once, in two parts. -/
def Splits (split : ℚ → List ℕ → Except PyErr (List ℕ × List ℕ)) : Prop :=
  ∀ q l p, split q l = .ok p → (p.1 ++ p.2).Perm l

/-- The samples as rows with their own flux, labels and target. -/
def sampleRows {F L Y : Type} (castF : F → F) (castL : L → L) (castY : Y → Y) :
    List F → List L → List Y → List (Sample F L Y)
  | f :: fs, l :: ls, y :: ys => ⟨castF f, castL l, castY y⟩ :: sampleRows castF castL castY fs ls ys
  | _, _, _ => []

theorem sampleRows_eq {F L Y : Type} (castF : F → F) (castL : L → L) (castY : Y → Y) (flux : List F)
    (labels : List L) (y : List Y) :
    sampleRows castF castL castY flux labels y
      = zipRows (flux.map castF) (labels.map castL) (y.map castY) := by
  induction flux generalizing labels y with
  | nil => cases labels <;> rfl
  | cons f fs ih =>
    cases labels with
    | nil => rfl
    | cons l ls =>
      cases y with
      | nil => rfl
      | cons y ys => simp only [sampleRows, List.map_cons, zipRows, ih]

/-- C60: if the file name contains "memmap" and the splitter does not raise, the written file holds every
sample exactly once (a permutation of the rows, each row with its own flux, labels and target), the metadata
read back is what was stored, and no other file changes.  The full property is for every file name, see
`C60_violation_data_destroyed`. -/
theorem C60_stored_partial {F L Y : Type} (split : ℚ → List ℕ → Except PyErr (List ℕ × List ℕ))
    (hsplit : Splits split) (castF : F → F) (castL : L → L) (castY : Y → Y) (filename : List Char)
    (hname : Occurs "memmap".toList filename)
    (flux : List F) (labels : List L) (y : List Y) (hl : labels.length = flux.length)
    (hy : y.length = flux.length) (fs ls ys : ℕ) (disk : Disk F L Y) (idx : List ℕ)
    (hidx : splitIndex split flux.length = .ok idx) :
    ∃ disk' stored, deeponetMemmap split castF castL castY filename flux labels y fs ls ys disk = .ok disk' ∧
      disk' filename = some (.rows stored) ∧
      stored.Perm (sampleRows castF castL castY flux labels y) ∧
      loadMetadata disk' filename = .ok (flux.length, fs, ls, ys) ∧
      ∀ f, f ≠ filename → f ≠ pickleName filename → disk' f = disk f := by
  have hperm : idx.Perm (List.range flux.length) := by
    unfold splitIndex at hidx
    simp only [bind, Except.bind] at hidx
    split at hidx
    · cases hidx
    · rename_i p1 hp1
      split at hidx
      · cases hidx
      · rename_i p2 hp2
        cases hidx
        exact (List.Perm.append_right _ (hsplit _ _ _ hp2)).trans (hsplit _ _ _ hp1)
  have hmem : ∀ i ∈ idx, i < flux.length := fun i hi => List.mem_range.mp (hperm.mem_iff.mp hi)
  rcases Nat.eq_zero_or_pos flux.length with hz | hpos
  · have hi0 : idx = [] := by
      rw [hz] at hperm; exact hperm.eq_nil
    subst hi0
    have e1 : flux = [] := List.eq_nil_of_length_eq_zero hz
    have e2 : labels = [] := List.eq_nil_of_length_eq_zero (by omega)
    have e3 : y = [] := List.eq_nil_of_length_eq_zero (by omega)
    subst e1 e2 e3
    refine ⟨Function.update (Function.update disk filename (some (.rows []))) (pickleName filename)
      (some (.metadata 0 fs ls ys)), [], ?_, ?_, ?_, ?_, ?_⟩
    · simp only [deeponetMemmap, hidx, takeRows, bind, Except.bind, List.map_nil, zipRows]
      rfl
    · rw [Function.update_of_ne (pickleName_ne_iff filename |>.mpr hname).symm, Function.update_self]
    · exact List.Perm.refl _
    · simp only [loadMetadata, Function.update_self, List.length_nil]
    · intro f h1 h2
      rw [Function.update_of_ne h2, Function.update_of_ne h1]
  · obtain ⟨df, flux', rfl⟩ : ∃ d l, flux = d :: l := by
      cases flux with
      | nil => simp at hpos
      | cons d l => exact ⟨d, l, rfl⟩
    obtain ⟨dl, labels', rfl⟩ : ∃ d l, labels = d :: l := by
      cases labels with
      | nil => simp at hl
      | cons d l => exact ⟨d, l, rfl⟩
    obtain ⟨dy, y', rfl⟩ : ∃ d l, y = d :: l := by
      cases y with
      | nil => simp at hy
      | cons d l => exact ⟨d, l, rfl⟩
    have t1 := takeRows_spec (df :: flux') df idx hmem
    have t2 := takeRows_spec (dl :: labels') dl idx (by rw [hl]; exact hmem)
    have t3 := takeRows_spec (dy :: y') dy idx (by rw [hy]; exact hmem)
    refine ⟨Function.update (Function.update disk filename (some (.rows
      (zipRows ((idx.map fun i => (df :: flux').getD i df).map castF)
        ((idx.map fun i => (dl :: labels').getD i dl).map castL)
        ((idx.map fun i => (dy :: y').getD i dy).map castY))))) (pickleName filename)
      (some (.metadata (df :: flux').length fs ls ys)),
      zipRows ((idx.map fun i => (df :: flux').getD i df).map castF)
        ((idx.map fun i => (dl :: labels').getD i dl).map castL)
        ((idx.map fun i => (dy :: y').getD i dy).map castY), ?_, ?_, ?_, ?_, ?_⟩
    · simp only [deeponetMemmap, hidx, t1, t2, t3, bind, Except.bind]
    · rw [Function.update_of_ne (pickleName_ne_iff filename |>.mpr hname).symm, Function.update_self]
    · rw [sampleRows_eq]
      have g1 := map_getD_range (df :: flux') df
      have g2 := map_getD_range (dl :: labels') dl
      have g3 := map_getD_range (dy :: y') dy
      rw [hl] at g2
      rw [hy] at g3
      have hz := zipRows_map (fun i => castF ((df :: flux').getD i df))
        (fun i => castL ((dl :: labels').getD i dl)) (fun i => castY ((dy :: y').getD i dy))
      have hr := hz (List.range (df :: flux').length)
      rw [show (List.range (df :: flux').length).map (fun i => castF ((df :: flux').getD i df))
          = (df :: flux').map castF from by
            rw [← congrArg (List.map castF) g1, List.map_map]; rfl,
        show (List.range (df :: flux').length).map (fun i => castL ((dl :: labels').getD i dl))
          = (dl :: labels').map castL from by
            rw [← congrArg (List.map castL) g2, List.map_map]; rfl,
        show (List.range (df :: flux').length).map (fun i => castY ((dy :: y').getD i dy))
          = (dy :: y').map castY from by
            rw [← congrArg (List.map castY) g3, List.map_map]; rfl] at hr
      rw [hr, List.map_map, List.map_map, List.map_map]
      refine (List.Perm.of_eq (hz idx)).trans ?_
      exact hperm.map _
    · simp only [loadMetadata, Function.update_self]
    · intro f h1 h2
      rw [Function.update_of_ne h2, Function.update_of_ne h1]

/-- A splitter for the example: the last index goes to the second part. -/
def lastSplit (_ : ℚ) (l : List ℕ) : Except PyErr (List ℕ × List ℕ) :=
  if l.length < 2 then .error .valueError else .ok (l.dropLast, l.getLast?.toList)

/-- non-vacuity: a splitter and a name that meet the hypotheses, on five samples. -/
example : Splits lastSplit ∧ Occurs "memmap".toList "train-memmap.dat".toList ∧
    splitIndex lastSplit 5 = .ok [0, 1, 2, 3, 4] := by
  refine ⟨?_, ⟨"train-".toList, ".dat".toList, by decide⟩, by decide⟩
  intro q l p h
  unfold lastSplit at h
  split at h
  · cases h
  · rename_i hl
    cases h
    have hne : l ≠ [] := by rintro rfl; simp at hl
    rw [List.getLast?_eq_some_getLast hne]
    simp only [Option.toList]
    rw [List.dropLast_append_getLast hne]

/-- C60: for every file name without "memmap" the metadata overwrite the data: after the call the file holds
the four numbers and no row. -/
theorem C60_violation_data_destroyed {F L Y : Type} (split : ℚ → List ℕ → Except PyErr (List ℕ × List ℕ))
    (castF : F → F) (castL : L → L) (castY : Y → Y) (filename : List Char)
    (hname : ¬ Occurs "memmap".toList filename)
    (flux : List F) (labels : List L) (y : List Y) (fs ls ys : ℕ) (disk disk' : Disk F L Y)
    (h : deeponetMemmap split castF castL castY filename flux labels y fs ls ys disk = .ok disk') :
    disk' filename = some (.metadata flux.length fs ls ys) := by
  have hpn : pickleName filename = filename := by
    by_contra hc
    exact hname ((pickleName_ne_iff filename).mp hc)
  simp only [deeponetMemmap, bind, Except.bind] at h
  repeat' split at h
  all_goals first
    | cases h; done
    | (cases h; rw [hpn, Function.update_self])

/-- C60: two different files can share one companion file, so writing the second replaces the metadata of the
first. -/
theorem C60_violation_shared_metadata :
    "memmap-pickle".toList ≠ "pickle-memmap".toList ∧
      pickleName "memmap-pickle".toList = pickleName "pickle-memmap".toList ∧
      Occurs "memmap".toList "memmap-pickle".toList ∧ Occurs "memmap".toList "pickle-memmap".toList :=
  ⟨by decide, by decide, ⟨[], "-pickle".toList, by decide⟩, ⟨"pickle-".toList, [], by decide⟩⟩

/-- non-vacuity: a name without "memmap" for which the call succeeds. -/
example : ¬ Occurs "memmap".toList "data.npy".toList ∧
    ∃ disk', deeponetMemmap lastSplit id id id "data.npy".toList [1, 2, 3] [4, 5, 6] [7, 8, 9] 1 1 1
      (fun _ => none) = .ok disk' := by
  refine ⟨?_, _, rfl⟩
  rw [← pickleName_ne_iff, not_not]
  decide

end Discrete1.Props
