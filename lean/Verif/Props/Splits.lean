import Verif.Model.Splits
import Verif.Props.Datasets
import Mathlib.Tactic.IntervalCases

/-! # C138, C139: the training, validation and test rows, in memory and in memmap files -/

set_option linter.unusedSectionVars false
set_option linter.unusedSimpArgs false

namespace Discrete1.Props

open Discrete1.Ml

/-- What the seeded generator returns: a permutation of the row numbers. -/
def PermutesRows (perm : ℕ → List ℕ) : Prop := ∀ n, (perm n).Perm (List.range n)

theorem takeRows_map {R T : Type} (f : R → T) (a : List R) (idx : List ℕ) :
    takeRows (a.map f) idx = (takeRows a idx).map (List.map f) := by
  induction idx with
  | nil => rfl
  | cons i idx ih =>
    simp only [takeRows, List.getElem?_map]
    cases h : a[i]? with
    | none => rfl
    | some r =>
      simp only [Option.map_some, ih]
      cases takeRows a idx <;> rfl

/-- Splitting is natural: it selects rows by position only. -/
theorem trainTestSplit_map {R T : Type} (perm : ℕ → List ℕ) (q : ℚ) (f : R → T) (l : List R) :
    trainTestSplit perm q (l.map f)
      = (trainTestSplit perm q l).map fun p => (p.1.map f, p.2.map f) := by
  unfold trainTestSplit
  simp only [List.length_map, takeRows_map]
  split_ifs
  · rfl
  · cases takeRows l ((perm l.length).take ⌈q * (l.length : ℚ)⌉.toNat) <;>
      cases takeRows l (((perm l.length).drop ⌈q * (l.length : ℚ)⌉.toNat).take
        (l.length - ⌈q * (l.length : ℚ)⌉.toNat)) <;> rfl

theorem takeRows_ok {R : Type} (a : List R) (idx : List ℕ) (h : ∀ i ∈ idx, i < a.length) :
    ∃ r, takeRows a idx = .ok r ∧ r.length = idx.length ∧
      ∀ d, r = idx.map fun i => a.getD i d := by
  cases a with
  | nil =>
    cases idx with
    | nil => exact ⟨[], rfl, rfl, fun _ => rfl⟩
    | cons i idx => exact absurd (h i (by simp)) (by simp)
  | cons x xs =>
    refine ⟨_, takeRows_spec (x :: xs) x idx h, by simp, fun d => List.map_congr_left fun i hi => ?_⟩
    rw [List.getD_eq_getElem?_getD, List.getD_eq_getElem?_getD, List.getElem?_eq_getElem (h i hi)]
    rfl

/-- A split of `n` rows, `k = ceil(q n) < n` of which are for testing. -/
theorem trainTestSplit_ok {R : Type} (perm : ℕ → List ℕ) (hp : PermutesRows perm) (q : ℚ) (l : List R) (k : ℕ)
    (hk : ⌈q * (l.length : ℚ)⌉.toNat = k) (hlt : k < l.length) :
    ∃ train test, trainTestSplit perm q l = .ok (train, test) ∧ (train ++ test).Perm l ∧
      test.length = k ∧ train.length = l.length - k := by
  have hlen : (perm l.length).length = l.length := by rw [(hp _).length_eq, List.length_range]
  have hin : ∀ i ∈ perm l.length, i < l.length := fun i hi =>
    List.mem_range.mp ((hp _).mem_iff.mp hi)
  obtain ⟨te, h1, h2, h3⟩ := takeRows_ok l ((perm l.length).take k) fun i hi => hin i (List.mem_of_mem_take hi)
  obtain ⟨tr, g1, g2, g3⟩ := takeRows_ok l (((perm l.length).drop k).take (l.length - k))
    fun i hi => hin i (List.mem_of_mem_drop (List.mem_of_mem_take hi))
  refine ⟨tr, te, ?_, ?_, ?_, ?_⟩
  · unfold trainTestSplit
    simp only [hk]
    rw [if_neg (by omega), h1, g1]
  · obtain ⟨d, _⟩ : ∃ d : R, True := by
      cases l with
      | nil => simp at hlt
      | cons x _ => exact ⟨x, trivial⟩
    rw [g3 d, h3 d, ← List.map_append]
    have hall : ((perm l.length).drop k).take (l.length - k) = (perm l.length).drop k :=
      List.take_of_length_le (by rw [List.length_drop, hlen])
    rw [hall]
    have : ((perm l.length).drop k ++ (perm l.length).take k).Perm (List.range l.length) := by
      refine List.perm_append_comm.trans ?_
      rw [List.take_append_drop]
      exact hp _
    refine (this.map _).trans ?_
    rw [map_getD_range]
  · rw [h2, List.length_take, hlen]; omega
  · rw [g2, List.length_take, List.length_drop, hlen]; omega

theorem trainTestSplit_small {R : Type} (perm : ℕ → List ℕ) (q : ℚ) (l : List R)
    (h : l.length ≤ ⌈q * (l.length : ℚ)⌉.toNat) : trainTestSplit perm q l = .error .valueError := by
  unfold trainTestSplit
  simp only
  rw [if_pos (by omega)]

theorem ceil_fifth (n : ℕ) : ⌈(2 / 10 : ℚ) * (n : ℚ)⌉.toNat = (n + 4) / 5 := by
  have : ⌈(2 / 10 : ℚ) * (n : ℚ)⌉ = (((n + 4) / 5 : ℕ) : ℤ) := by
    rw [Int.ceil_eq_iff]
    have h1 : 5 * ((n + 4) / 5) ≤ n + 4 := Nat.mul_div_le _ _
    have h2 : n + 4 < 5 * ((n + 4) / 5) + 5 := by omega
    have h1' : (5 : ℚ) * (((n + 4) / 5 : ℕ) : ℚ) ≤ n + 4 := by exact_mod_cast h1
    have h2' : (n : ℚ) ≤ 5 * (((n + 4) / 5 : ℕ) : ℚ) := by
      have : n ≤ 5 * ((n + 4) / 5) := by omega
      exact_mod_cast this
    rw [Int.cast_natCast]
    constructor <;> linarith
  rw [this]; rfl

theorem ceil_quarter (n : ℕ) : ⌈(25 / 100 : ℚ) * (n : ℚ)⌉.toNat = (n + 3) / 4 := by
  have : ⌈(25 / 100 : ℚ) * (n : ℚ)⌉ = (((n + 3) / 4 : ℕ) : ℤ) := by
    rw [Int.ceil_eq_iff]
    have h1 : 4 * ((n + 3) / 4) ≤ n + 3 := Nat.mul_div_le _ _
    have h1' : (4 : ℚ) * (((n + 3) / 4 : ℕ) : ℚ) ≤ n + 3 := by exact_mod_cast h1
    have h2' : (n : ℚ) ≤ 4 * (((n + 3) / 4 : ℕ) : ℚ) := by
      have : n ≤ 4 * ((n + 3) / 4) := by omega
      exact_mod_cast this
    rw [Int.cast_natCast]
    constructor <;> linarith
  rw [this]; rfl

/-- The two splits on row numbers: training, validation, test. -/
def partsOf (perm : ℕ → List ℕ) (n : ℕ) : Except PyErr (List ℕ × List ℕ × List ℕ) :=
  match trainTestSplit perm (2 / 10) (List.range n) with
  | .error e => .error e
  | .ok (rest, test) =>
    match trainTestSplit perm (25 / 100) rest with
    | .error e => .error e
    | .ok (train, val) => .ok (train, val, test)

theorem parts_ok (perm : ℕ → List ℕ) (hp : PermutesRows perm) (n : ℕ) (hn : 3 ≤ n) :
    ∃ train val test, partsOf perm n = .ok (train, val, test) ∧
      (train ++ val ++ test).Perm (List.range n) ∧ test.length = (n + 4) / 5 ∧
      val.length = (n - (n + 4) / 5 + 3) / 4 ∧ train.length = n - (n + 4) / 5 - (n - (n + 4) / 5 + 3) / 4 := by
  obtain ⟨rest, test, h1, h2, h3, h4⟩ := trainTestSplit_ok perm hp (2 / 10) (List.range n) ((n + 4) / 5)
    (by rw [List.length_range, ceil_fifth]) (by rw [List.length_range]; omega)
  rw [List.length_range] at h4
  obtain ⟨train, val, g1, g2, g3, g4⟩ := trainTestSplit_ok perm hp (25 / 100) rest ((n - (n + 4) / 5 + 3) / 4)
    (by rw [h4, ceil_quarter]) (by rw [h4]; omega)
  refine ⟨train, val, test, ?_, (g2.append_right _).trans h2, h3, g3, by rw [g4, h4]⟩
  unfold partsOf
  rw [h1]
  simp only
  rw [g1]

theorem parts_small (perm : ℕ → List ℕ) (hp : PermutesRows perm) (n : ℕ) (hn : n < 3) :
    partsOf perm n = .error .valueError := by
  unfold partsOf
  by_cases h2 : n = 2
  · subst h2
    obtain ⟨rest, test, h1, _, _, h4⟩ := trainTestSplit_ok perm hp (2 / 10) (List.range 2) 1
      (by rw [List.length_range, ceil_fifth]) (by rw [List.length_range]; omega)
    rw [h1]
    simp only
    rw [List.length_range] at h4
    rw [trainTestSplit_small perm (25 / 100) rest (by rw [ceil_quarter, h4])]
  · rw [trainTestSplit_small perm (2 / 10) (List.range n) (by
      rw [List.length_range, ceil_fifth]; omega)]

/-- Sample `i`: its flux, its labels and its target. -/
def sampleAt {F L Y : Type} (castF : F → F) (castL : L → L) (castY : Y → Y) (flux : List F) (labels : List L)
    (y : List Y) (df : F) (dl : L) (dy : Y) (i : ℕ) : Sample F L Y :=
  ⟨castF (flux.getD i df), castL (labels.getD i dl), castY (y.getD i dy)⟩

theorem split3_eq {F L Y : Type} (perm : ℕ → List ℕ) (q : ℚ) (f : ℕ → F) (l : ℕ → L) (y : ℕ → Y) (idx : List ℕ) :
    trainTestSplit3 perm q (idx.map f) (idx.map l) (idx.map y)
      = (trainTestSplit perm q idx).map fun p =>
          ((p.1.map f, p.1.map l, p.1.map y), (p.2.map f, p.2.map l, p.2.map y)) := by
  unfold trainTestSplit3
  rw [if_neg (by simp), trainTestSplit_map, trainTestSplit_map, trainTestSplit_map]
  cases trainTestSplit perm q idx <;> rfl

theorem processData_eq {F L Y : Type} (perm : ℕ → List ℕ) (castF : F → F) (castL : L → L) (castY : Y → Y)
    (flux : List F) (labels : List L) (y : List Y) (hl : labels.length = flux.length)
    (hy : y.length = flux.length) (df : F) (dl : L) (dy : Y) :
    processData perm castF castL castY flux labels y
      = (partsOf perm flux.length).map fun p =>
          (p.1.map (sampleAt castF castL castY flux labels y df dl dy),
            p.2.1.map (sampleAt castF castL castY flux labels y df dl dy),
            p.2.2.map (sampleAt castF castL castY flux labels y df dl dy)) := by
  have e1 := map_getD_range flux df
  have e2 := map_getD_range labels dl
  have e3 := map_getD_range y dy
  rw [hl] at e2
  rw [hy] at e3
  have hs : ∀ idx : List ℕ, tensorDataset castF castL castY
      (idx.map fun i => flux.getD i df, idx.map fun i => labels.getD i dl, idx.map fun i => y.getD i dy)
      = idx.map (sampleAt castF castL castY flux labels y df dl dy) := by
    intro idx
    unfold tensorDataset
    simp only [List.map_map]
    exact zipRows_map _ _ _ idx
  unfold processData partsOf
  conv_lhs => rw [← e1, ← e2, ← e3]
  rw [split3_eq]
  cases trainTestSplit perm (2 / 10) (List.range flux.length) with
  | error e => rfl
  | ok p =>
    obtain ⟨rest, test⟩ := p
    simp only [Except.map]
    rw [split3_eq]
    cases trainTestSplit perm (25 / 100) rest with
    | error e => rfl
    | ok p =>
      obtain ⟨train, val⟩ := p
      simp only [Except.map, hs]

/-- C139: from three samples on, `process_data` cuts the samples into training, validation and test rows: every
sample - with its own flux, labels and target - is in exactly one part, one fifth (rounded up) is kept for testing and
one quarter of the rest (rounded up) for validation, whatever the seed. -/
theorem C139_process_data_partial {F L Y : Type} (perm : ℕ → List ℕ) (hp : PermutesRows perm) (castF : F → F) (castL : L → L)
    (castY : Y → Y) (flux : List F) (labels : List L) (y : List Y) (hl : labels.length = flux.length)
    (hy : y.length = flux.length) (hn : 3 ≤ flux.length) :
    ∃ train val test, processData perm castF castL castY flux labels y = .ok (train, val, test) ∧
      (train ++ val ++ test).Perm (sampleRows castF castL castY flux labels y) ∧
      test.length = (flux.length + 4) / 5 ∧ val.length = (flux.length - test.length + 3) / 4 ∧
      0 < train.length ∧ 0 < val.length := by
  obtain ⟨df, _⟩ : ∃ d : F, True := by
    cases flux with
    | nil => simp at hn
    | cons x _ => exact ⟨x, trivial⟩
  obtain ⟨dl, _⟩ : ∃ d : L, True := by
    cases labels with
    | nil => simp at hl; omega
    | cons x _ => exact ⟨x, trivial⟩
  obtain ⟨dy, _⟩ : ∃ d : Y, True := by
    cases y with
    | nil => simp at hy; omega
    | cons x _ => exact ⟨x, trivial⟩
  obtain ⟨tr, va, te, h1, h2, h3, h4, h5⟩ := parts_ok perm hp flux.length hn
  rw [processData_eq perm castF castL castY flux labels y hl hy df dl dy, h1]
  refine ⟨_, _, _, rfl, ?_, by simp [h3], by simp [h3, h4], by simp only [List.length_map]; omega,
    by simp only [List.length_map]; omega⟩
  simp only
  rw [← List.map_append, ← List.map_append]
  refine (h2.map _).trans ?_
  have : (List.range flux.length).map (sampleAt castF castL castY flux labels y df dl dy)
      = sampleRows castF castL castY flux labels y := by
    rw [sampleRows_eq]
    have e1 := map_getD_range flux df
    have e2 := map_getD_range labels dl
    have e3 := map_getD_range y dy
    rw [hl] at e2
    rw [hy] at e3
    conv_rhs => rw [← e1, ← e2, ← e3]
    simp only [List.map_map]
    exact (zipRows_map _ _ _ _).symm
  rw [this]

/-- C139 fails below three samples: `process_data` raises ValueError. -/
theorem C139_violation_few_samples {F L Y : Type} (perm : ℕ → List ℕ) (hp : PermutesRows perm) (castF : F → F)
    (castL : L → L) (castY : Y → Y) (flux : List F) (labels : List L) (y : List Y)
    (hl : labels.length = flux.length) (hy : y.length = flux.length) (hn : flux.length < 3) :
    processData perm castF castL castY flux labels y = .error .valueError := by
  cases flux with
  | nil =>
    unfold processData trainTestSplit3
    rw [if_neg (by simp [hl, hy]), trainTestSplit_small perm (2 / 10) ([] : List F) (by simp)]
  | cons df fs =>
    obtain ⟨dl, _⟩ : ∃ d : L, True := by
      cases labels with
      | nil => simp at hl
      | cons x _ => exact ⟨x, trivial⟩
    obtain ⟨dy, _⟩ : ∃ d : Y, True := by
      cases y with
      | nil => simp at hy
      | cons x _ => exact ⟨x, trivial⟩
    rw [processData_eq perm castF castL castY _ labels y hl hy df dl dy, parts_small perm hp _ hn]
    rfl

/-- C139 for the tuner: with the validation fraction `q`, `_process_data` keeps `ceil(q n)` samples for
validation and trains on the others, each sample with its own flux, labels and target in exactly one of the two
parts; it raises ValueError exactly when no sample would be left for training. -/
theorem C139_tuner_process_data {F L Y : Type} (perm : ℕ → List ℕ) (hp : PermutesRows perm) (q : ℚ) (castF : F → F)
    (castL : L → L) (castY : Y → Y) (flux : List F) (labels : List L) (y : List Y)
    (hl : labels.length = flux.length) (hy : y.length = flux.length) :
    (⌈q * (flux.length : ℚ)⌉.toNat < flux.length →
      ∃ train val, tuneProcessData perm q castF castL castY flux labels y = .ok (train, val) ∧
        (train ++ val).Perm (sampleRows castF castL castY flux labels y) ∧
        val.length = ⌈q * (flux.length : ℚ)⌉.toNat ∧ 0 < train.length) ∧
    (flux.length ≤ ⌈q * (flux.length : ℚ)⌉.toNat →
      tuneProcessData perm q castF castL castY flux labels y = .error .valueError) := by
  refine ⟨fun hq => ?_, fun hq => ?_⟩
  · obtain ⟨df, _⟩ : ∃ d : F, True := by
      cases flux with
      | nil => simp at hq
      | cons x _ => exact ⟨x, trivial⟩
    obtain ⟨dl, _⟩ : ∃ d : L, True := by
      cases labels with
      | nil => simp at hl; omega
      | cons x _ => exact ⟨x, trivial⟩
    obtain ⟨dy, _⟩ : ∃ d : Y, True := by
      cases y with
      | nil => simp at hy; omega
      | cons x _ => exact ⟨x, trivial⟩
    have e1 := map_getD_range flux df
    have e2 := map_getD_range labels dl
    have e3 := map_getD_range y dy
    rw [hl] at e2
    rw [hy] at e3
    have hs : ∀ idx : List ℕ, tensorDataset castF castL castY
        (idx.map fun i => flux.getD i df, idx.map fun i => labels.getD i dl, idx.map fun i => y.getD i dy)
        = idx.map (sampleAt castF castL castY flux labels y df dl dy) := by
      intro idx
      unfold tensorDataset
      simp only [List.map_map]
      exact zipRows_map _ _ _ idx
    obtain ⟨train, val, h1, h2, h3, h4⟩ := trainTestSplit_ok perm hp q (List.range flux.length) _
      (by rw [List.length_range]) (by rw [List.length_range]; exact hq)
    rw [List.length_range] at h4
    refine ⟨train.map (sampleAt castF castL castY flux labels y df dl dy),
      val.map (sampleAt castF castL castY flux labels y df dl dy), ?_, ?_, by rw [List.length_map, h3],
      by rw [List.length_map, h4]; omega⟩
    · unfold tuneProcessData
      conv_lhs => rw [← e1, ← e2, ← e3]
      rw [split3_eq, h1]
      simp only [Except.map, hs]
    · rw [← List.map_append]
      refine (h2.map _).trans ?_
      rw [sampleRows_eq]
      conv_rhs => rw [← e1, ← e2, ← e3]
      simp only [List.map_map]
      rw [show zipRows _ _ _ = _ from zipRows_map _ _ _ (List.range flux.length)]
      exact List.Perm.refl _
  · unfold tuneProcessData trainTestSplit3
    rw [if_neg (by simp [hl, hy]), trainTestSplit_small perm q flux hq]

theorem splitIndex_eq (perm : ℕ → List ℕ) (n : ℕ) :
    splitIndex (trainTestSplit perm) n = (partsOf perm n).map fun p => p.1 ++ p.2.1 ++ p.2.2 := by
  unfold splitIndex partsOf
  simp only [bind, Except.bind]
  cases trainTestSplit perm (2 / 10) (List.range n) with
  | error e => rfl
  | ok p =>
    simp only
    cases trainTestSplit perm (25 / 100) p.1 with
    | error e => rfl
    | ok p => rfl

/-- C139: `deeponet_memmap` writes the rows in the order training, validation, test of `process_data` with
the same seed. -/
theorem C139_same_parts_as_memmap {F L Y : Type} (perm : ℕ → List ℕ) (hp : PermutesRows perm) (castF : F → F)
    (castL : L → L) (castY : Y → Y) (flux : List F) (labels : List L) (y : List Y)
    (hl : labels.length = flux.length) (hy : y.length = flux.length) (hn : 3 ≤ flux.length)
    (filename : List Char) (hname : pickleName filename ≠ filename) (fs ls ys : ℕ) (disk : Disk F L Y) :
    ∃ train val test disk', processData perm castF castL castY flux labels y = .ok (train, val, test) ∧
      deeponetMemmap (trainTestSplit perm) castF castL castY filename flux labels y fs ls ys disk = .ok disk' ∧
      disk' filename = some (.rows (train ++ val ++ test)) := by
  obtain ⟨df, _⟩ : ∃ d : F, True := by
    cases flux with
    | nil => simp at hn
    | cons x _ => exact ⟨x, trivial⟩
  obtain ⟨dl, _⟩ : ∃ d : L, True := by
    cases labels with
    | nil => simp at hl; omega
    | cons x _ => exact ⟨x, trivial⟩
  obtain ⟨dy, _⟩ : ∃ d : Y, True := by
    cases y with
    | nil => simp at hy; omega
    | cons x _ => exact ⟨x, trivial⟩
  obtain ⟨tr, va, te, h1, h2, h3, h4, h5⟩ := parts_ok perm hp flux.length hn
  have hin : ∀ i ∈ tr ++ va ++ te, i < flux.length := fun i hi => List.mem_range.mp (h2.mem_iff.mp hi)
  have hd : deeponetMemmap (trainTestSplit perm) castF castL castY filename flux labels y fs ls ys disk
      = .ok (Function.update (Function.update disk filename (some (.rows
          ((tr ++ va ++ te).map (sampleAt castF castL castY flux labels y df dl dy)))))
          (pickleName filename) (some (.metadata flux.length fs ls ys))) := by
    unfold deeponetMemmap
    rw [splitIndex_eq, h1]
    simp only [Except.map, bind, Except.bind]
    rw [takeRows_spec flux df _ hin, takeRows_spec labels dl _ (by rw [hl]; exact hin),
      takeRows_spec y dy _ (by rw [hy]; exact hin)]
    simp only [List.map_map]
    rw [show zipRows _ _ _ = _ from zipRows_map _ _ _ (tr ++ va ++ te)]
    rfl
  rw [processData_eq perm castF castL castY flux labels y hl hy df dl dy, h1]
  refine ⟨_, _, _, _, rfl, hd, ?_⟩
  rw [Function.update_of_ne (Ne.symm hname), Function.update_self]
  simp only [List.map_append]

theorem floor_train (n : ℕ) : ⌊(6 / 10 : ℚ) * (n : ℚ)⌋.toNat = 3 * n / 5 := by
  have : ⌊(6 / 10 : ℚ) * (n : ℚ)⌋ = ((3 * n / 5 : ℕ) : ℤ) := by
    rw [Int.floor_eq_iff]
    have h1 : ((5 * (3 * n / 5) : ℕ) : ℚ) ≤ ((3 * n : ℕ) : ℚ) := by exact_mod_cast Nat.mul_div_le _ _
    have h2 : ((3 * n : ℕ) : ℚ) < ((5 * (3 * n / 5) + 5 : ℕ) : ℚ) := by
      have : 3 * n < 5 * (3 * n / 5) + 5 := by omega
      exact_mod_cast this
    rw [Nat.cast_mul] at h1
    rw [Nat.cast_add, Nat.cast_mul, Nat.cast_mul] at h2
    rw [Nat.cast_mul] at h1
    rw [Int.cast_natCast]
    norm_num at h1 h2 ⊢
    constructor <;> linarith
  rw [this]; rfl

theorem floor_val (n : ℕ) : ⌊(6 / 10 + 2 / 10 : ℚ) * (n : ℚ)⌋.toNat = 4 * n / 5 := by
  have : ⌊(6 / 10 + 2 / 10 : ℚ) * (n : ℚ)⌋ = ((4 * n / 5 : ℕ) : ℤ) := by
    rw [Int.floor_eq_iff]
    have h1 : ((5 * (4 * n / 5) : ℕ) : ℚ) ≤ ((4 * n : ℕ) : ℚ) := by exact_mod_cast Nat.mul_div_le _ _
    have h2 : ((4 * n : ℕ) : ℚ) < ((5 * (4 * n / 5) + 5 : ℕ) : ℚ) := by
      have : 4 * n < 5 * (4 * n / 5) + 5 := by omega
      exact_mod_cast this
    rw [Nat.cast_mul] at h1
    rw [Nat.cast_add, Nat.cast_mul, Nat.cast_mul] at h2
    rw [Nat.cast_mul] at h1
    rw [Int.cast_natCast]
    norm_num at h1 h2 ⊢
    constructor <;> linarith
  rw [this]; rfl

/-- A row served by a data set, through any item. -/
def Serves (d : Dataset) (r : ℕ) : Prop := ∃ m b l, d.len = .ok m ∧ b < m ∧ d.getItem b = .ok l ∧ r ∈ l

theorem serves_within (n batch start stop : ℕ) (hb : 0 < batch) (h1 : start ≤ stop) (h2 : stop ≤ n)
    (h3 : 0 < stop) : ∃ d, mkDataset n batch start (some stop) = .ok d ∧
      (∀ r, Serves d r → start ≤ r ∧ r < stop) ∧ (batch = 1 → ∀ r, start ≤ r → r < stop → Serves d r) := by
  obtain ⟨d, e1, m, e2, e3, _, e5, e6⟩ := C59_batches n batch start stop hb h1 h2 h3
  refine ⟨d, e1, ?_, ?_⟩
  · rintro r ⟨m', b, l, g1, g2, g3, g4⟩
    rw [e2] at g1
    obtain rfl := Except.ok.inj g1
    rw [e3 b g2] at g3
    obtain rfl := Except.ok.inj g3
    rw [List.mem_range'] at g4
    obtain ⟨i, hi, rfl⟩ := g4
    have : (b + 1) * batch ≤ m * batch := Nat.mul_le_mul_right _ g2
    rw [Nat.add_mul] at this
    constructor <;> omega
  · rintro rfl r hr1 hr2
    exact ⟨m, r - start, _, e2, by omega, e3 _ (by omega), by rw [List.mem_range']; exact ⟨0, by omega, by omega⟩⟩

/-- C138: for a file written by `deeponet_memmap` (rows `train ++ val ++ test`) and read by
`process_data_memmap` with its default fractions, whatever the batch size: the rows served for training or validation are
never test rows and the rows served for testing always are; training rows are never served for validation; and if the
number of samples does not leave the remainder 2 on division by 5, training and validation get exactly their own
rows. -/
theorem C138_test_rows_held_out_partial (perm : ℕ → List ℕ) (hp : PermutesRows perm) (n batch : ℕ) (hn : 3 ≤ n)
    (hb : 0 < batch) (train val test idx : List ℕ) (hparts : partsOf perm n = .ok (train, val, test))
    (hidx : splitIndex (trainTestSplit perm) n = .ok idx) :
    ∃ a b c, processDataMemmap n batch (6 / 10 : ℚ) (2 / 10) = .ok (a, b, c) ∧ idx = train ++ val ++ test ∧
      (∀ r s, Serves a r → idx[r]? = some s → s ∈ train ∨ s ∈ val) ∧
      (∀ r s, Serves b r → idx[r]? = some s → s ∈ val) ∧
      (∀ r s, Serves c r → idx[r]? = some s → s ∈ test) ∧
      (n % 5 ≠ 2 → ∀ r s, Serves a r → idx[r]? = some s → s ∈ train) := by
  obtain ⟨tr, va, te, h1, _, h3, h4, h5⟩ := parts_ok perm hp n hn
  rw [hparts] at h1
  obtain ⟨rfl, rfl, rfl⟩ : train = tr ∧ val = va ∧ test = te := by
    have := Except.ok.inj h1
    exact ⟨congrArg Prod.fst this, congrArg (fun p => p.2.1) this, congrArg (fun p => p.2.2) this⟩
  rw [splitIndex_eq, hparts] at hidx
  obtain rfl : train ++ val ++ test = idx := Except.ok.inj hidx
  obtain ⟨a, a1, a2, _⟩ := serves_within n batch 0 (3 * n / 5) hb (by omega) (by omega) (by omega)
  obtain ⟨b, b1, b2, _⟩ := serves_within n batch (3 * n / 5) (4 * n / 5) hb (by omega) (by omega) (by omega)
  obtain ⟨c, c1, c2, _⟩ := serves_within n batch (4 * n / 5) n hb (by omega) (by omega) (by omega)
  have hval : ∀ r s, train.length ≤ r → r < train.length + val.length → (train ++ val ++ test)[r]? = some s →
      s ∈ val := by
    intro r s g1 g2 g
    rw [List.getElem?_append_left (by rw [List.length_append]; omega), List.getElem?_append_right g1] at g
    exact List.mem_of_getElem? g
  have htr : ∀ r s, r < train.length → (train ++ val ++ test)[r]? = some s → s ∈ train := by
    intro r s g1 g
    rw [List.getElem?_append_left (by rw [List.length_append]; omega), List.getElem?_append_left g1] at g
    exact List.mem_of_getElem? g
  refine ⟨a, b, c, ?_, rfl, fun r s hs g => ?_, fun r s hs g => ?_, fun r s hs g => ?_, fun hr r s hs g => ?_⟩
  · unfold processDataMemmap
    rw [floor_train, floor_val]
    show (mkDataset n batch 0 (some (3 * n / 5)) >>= fun train =>
      mkDataset n batch (3 * n / 5) (some (4 * n / 5)) >>= fun val =>
      mkDataset n batch (4 * n / 5) (some n) >>= fun test => .ok (train, val, test)) = _
    rw [a1, b1, c1]
    rfl
  · have := a2 r hs
    by_cases h : r < train.length
    · exact Or.inl (htr r s h g)
    · exact Or.inr (hval r s (by omega) (by omega) g)
  · have := b2 r hs
    exact hval r s (by omega) (by omega) g
  · have := c2 r hs
    rw [List.getElem?_append_right (by rw [List.length_append]; omega)] at g
    exact List.mem_of_getElem? g
  · have := a2 r hs
    have hlen : 3 * n / 5 ≤ train.length := by
      rw [h5]
      obtain ⟨m, k, hk, rfl⟩ : ∃ m k, k < 5 ∧ n = 5 * m + k := ⟨n / 5, n % 5, by omega, by omega⟩
      interval_cases k
      · have e1 : (5 * m + 0 + 4) / 5 = m := by omega
        rw [e1]; omega
      · have e1 : (5 * m + 1 + 4) / 5 = m + 1 := by omega
        rw [e1]; omega
      · omega
      · have e1 : (5 * m + 3 + 4) / 5 = m + 1 := by omega
        rw [e1]; omega
      · have e1 : (5 * m + 4 + 4) / 5 = m + 1 := by omega
        rw [e1]; omega
    exact htr r s (by omega) g

/-- C138 fails for the validation rows: whenever the number of samples leaves the remainder 2 on division by 5,
the first validation row of the file is served for training (batches of one row). -/
theorem C138_violation_validation_row_trained (perm : ℕ → List ℕ) (hp : PermutesRows perm) (n : ℕ) (hn : 3 ≤ n)
    (h2 : n % 5 = 2) :
    ∃ train val test idx a b c, partsOf perm n = .ok (train, val, test) ∧
      splitIndex (trainTestSplit perm) n = .ok idx ∧
      processDataMemmap n 1 (6 / 10 : ℚ) (2 / 10) = .ok (a, b, c) ∧
      ∃ r s, Serves a r ∧ idx[r]? = some s ∧ s ∈ val ∧ s ∉ train := by
  obtain ⟨tr, va, te, h1, hperm, h3, h4, h5⟩ := parts_ok perm hp n hn
  obtain ⟨a, a1, _, a2⟩ := serves_within n 1 0 (3 * n / 5) (by omega) (by omega) (by omega) (by omega)
  obtain ⟨b, b1, b2, _⟩ := serves_within n 1 (3 * n / 5) (4 * n / 5) (by omega) (by omega) (by omega) (by omega)
  obtain ⟨c, c1, c2, _⟩ := serves_within n 1 (4 * n / 5) n (by omega) (by omega) (by omega) (by omega)
  refine ⟨tr, va, te, tr ++ va ++ te, a, b, c, h1, by rw [splitIndex_eq, h1]; rfl, ?_, tr.length,
    va[0]'(by omega), a2 rfl _ (Nat.zero_le _) (by omega), ?_, List.getElem_mem _, ?_⟩
  · unfold processDataMemmap
    rw [floor_train, floor_val]
    show (mkDataset n 1 0 (some (3 * n / 5)) >>= fun train =>
      mkDataset n 1 (3 * n / 5) (some (4 * n / 5)) >>= fun val =>
      mkDataset n 1 (4 * n / 5) (some n) >>= fun test => .ok (train, val, test)) = _
    rw [a1, b1, c1]
    rfl
  · rw [List.getElem?_append_left (by rw [List.length_append]; omega),
      List.getElem?_append_right le_rfl, Nat.sub_self, List.getElem?_eq_getElem (by omega)]
  · intro hmem
    have hnd : (tr ++ va ++ te).Nodup := hperm.nodup_iff.mpr List.nodup_range
    have := (List.nodup_append.mp (List.nodup_append.mp hnd).1).2.2
    exact this _ hmem _ (List.getElem_mem _) rfl

/-! Examples -/

/-- A permutation: the reversed row numbers. -/
def reversed (n : ℕ) : List ℕ := (List.range n).reverse

theorem reversed_permutes : PermutesRows reversed := fun _ => List.reverse_perm _

example := C139_process_data_partial reversed reversed_permutes (id : ℚ → ℚ) (id : ℕ → ℕ) (id : ℤ → ℤ)
  [1, 2, 3, 4, 5] [1, 2, 3, 4, 5] [1, 2, 3, 4, 5] rfl rfl (by decide)

example := C139_violation_few_samples reversed reversed_permutes (id : ℚ → ℚ) (id : ℕ → ℕ) (id : ℤ → ℤ)
  [1, 2] [1, 2] [1, 2] rfl rfl (by decide)

example := (C139_tuner_process_data reversed reversed_permutes (2 / 10) (id : ℚ → ℚ) (id : ℕ → ℕ) (id : ℤ → ℤ)
  [1, 2, 3] [1, 2, 3] [1, 2, 3] rfl rfl).1 (by decide +kernel)

example := C139_same_parts_as_memmap reversed reversed_permutes (id : ℚ → ℚ) (id : ℕ → ℕ) (id : ℤ → ℤ)
  [1, 2, 3, 4, 5] [1, 2, 3, 4, 5] [1, 2, 3, 4, 5] rfl rfl (by decide) "memmap.dat".toList
  ((pickleName_ne_iff _).mpr ⟨[], ".dat".toList, by decide⟩) 1 1 1 (fun _ => none)

example (batch : ℕ) (hb : 0 < batch) : ∃ train val test idx, partsOf reversed 8 = .ok (train, val, test) ∧
    splitIndex (trainTestSplit reversed) 8 = .ok idx := by
  obtain ⟨tr, va, te, h1, _⟩ := parts_ok reversed reversed_permutes 8 (by omega)
  exact ⟨tr, va, te, _, h1, by rw [splitIndex_eq, h1]; rfl⟩

example := C138_violation_validation_row_trained reversed reversed_permutes 7 (by omega) rfl

end Discrete1.Props
