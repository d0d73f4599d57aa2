import Verif.Lemmas.Basic
import Verif.Model.Hybrid
import Verif.Spec.Partition

/-! Helper lemmas for `utils/hybrid.py`. -/

namespace Discrete1.Hybrid

open Finset Discrete1.Spec

variable {K : Type*} [Field K]

theorem mono_of_strict {C : ℕ} {e : ℕ → ℕ} (h : ∀ c < C, e c < e (c + 1)) :
    ∀ j ≤ C, ∀ i ≤ j, e i ≤ e j := by
  intro j hj
  induction j with
  | zero => intro i hi; rw [Nat.le_zero.mp hi]
  | succ j ih =>
    intro i hi
    rcases Nat.lt_or_ge i (j + 1) with h1 | h1
    · exact le_trans (ih (by omega) i (by omega)) (le_of_lt (h j (by omega)))
    · rw [le_antisymm hi h1]

theorem _root_.Discrete1.Spec.IsPartition.mono {C G : ℕ} {e : ℕ → ℕ} (h : IsPartition C G e) {i j : ℕ}
    (hij : i ≤ j) (hj : j ≤ C) : e i ≤ e j := mono_of_strict h.strict j hj i hij

theorem sum_blocks {M : Type*} [AddCommMonoid M] {e : ℕ → ℕ} {C : ℕ}
    (h : ∀ c < C, e c ≤ e (c + 1)) (f : ℕ → M) :
    ∑ c ∈ range C, ∑ g ∈ Ico (e c) (e (c + 1)), f g = ∑ g ∈ Ico (e 0) (e C), f g := by
  induction C with
  | zero => simp
  | succ C ih =>
    rw [sum_range_succ, ih (fun c hc => h c (by omega)), sum_Ico_consecutive]
    · have : ∀ j ≤ C + 1, ∀ i ≤ j, e i ≤ e j := by
        intro j hj
        induction j with
        | zero => intro i hi; rw [Nat.le_zero.mp hi]
        | succ j ihj =>
          intro i hi
          rcases Nat.lt_or_ge i (j + 1) with h1 | h1
          · exact le_trans (ihj (by omega) i (by omega)) (h j (by omega))
          · rw [le_antisymm hi h1]
      exact this C (by omega) 0 (by omega)
    · exact h C (by omega)

theorem _root_.Discrete1.Spec.IsPartition.sum_blocks {M : Type*} [AddCommMonoid M] {C G : ℕ} {e : ℕ → ℕ}
    (h : IsPartition C G e) (f : ℕ → M) :
    ∑ c ∈ range C, ∑ g ∈ Ico (e c) (e (c + 1)), f g = ∑ g ∈ range G, f g := by
  rw [Hybrid.sum_blocks (fun c hc => le_of_lt (h.strict c hc)), h.first, h.last, range_eq_Ico]

/-- Widths telescope inside a block. -/
theorem sum_diff_block (edges : ℕ → K) {a b : ℕ} (h : a ≤ b) :
    ∑ g ∈ Ico a b, diff edges g = edges b - edges a := by
  unfold diff
  exact sum_Ico_sub edges h

/-- In a partition every fine group lies in exactly one block. -/
theorem exists_block {C : ℕ} {e : ℕ → ℕ} (h0 : e 0 = 0) {g : ℕ}
    (hg : g < e C) : ∃ c < C, InBlock e c g := by
  induction C with
  | zero => omega
  | succ C ih =>
    by_cases h1 : g < e C
    · obtain ⟨c, hc, hb⟩ := ih h1
      exact ⟨c, by omega, hb⟩
    · exact ⟨C, by omega, by omega, hg⟩

theorem block_unique {C G : ℕ} {e : ℕ → ℕ} (h : IsPartition C G e) {c c' g : ℕ} (hc : c < C)
    (hc' : c' < C) (h1 : InBlock e c g) (h2 : InBlock e c' g) : c = c' := by
  rcases Nat.lt_trichotomy c c' with hlt | heq | hgt
  · have := h.mono (i := c + 1) (j := c') (by omega) (by omega)
    have := h1.2; have := h2.1; omega
  · exact heq
  · have := h.mono (i := c' + 1) (j := c) (by omega) (by omega)
    have := h2.2; have := h1.1; omega

theorem collidedIndex_of_block {C G : ℕ} {e : ℕ → ℕ} (h : IsPartition C G e) {c g : ℕ}
    (hc : c < C) (hb : InBlock e c g) : collidedIndex C e g = c := by
  unfold collidedIndex
  have key : ∀ n ≤ C, c < n → loop n (fun count idx g =>
      if e count ≤ g ∧ g < e (count + 1) then count else idx g) (fun _ => 0) g = c := by
    intro n
    induction n with
    | zero => intro _ h; omega
    | succ n ih =>
      intro hn hcn
      rw [loop_succ]
      by_cases hin : e n ≤ g ∧ g < e (n + 1)
      · rw [if_pos hin]
        exact block_unique h (by omega) hc hin hb
      · rw [if_neg hin]
        rcases Nat.lt_or_ge c n with h1 | h1
        · exact ih (by omega) h1
        · have : c = n := by omega
          subst this
          exact absurd hb hin
  exact key C (le_refl _) hc

/-- Inner loop of `hybrid_factor`: divides exactly the entries `start .. start+n-1`. -/
theorem factor_inner (start n : ℕ) (d : K) (f : ℕ → K) (g : ℕ) :
    loop n (fun k factor => setAt factor (start + k) (factor (start + k) / d)) f g =
      if start ≤ g ∧ g < start + n then f g / d else f g := by
  induction n with
  | zero => rw [loop_zero, if_neg (by omega)]
  | succ n ih =>
    rw [loop_succ, setAt_apply]
    by_cases hg : g = start + n
    · subst hg
      rw [if_pos rfl, ih, if_neg (by omega), if_pos (by omega)]
    · rw [if_neg hg, ih]
      by_cases h1 : start ≤ g ∧ g < start + n
      · rw [if_pos h1, if_pos (by omega)]
      · rw [if_neg h1, if_neg (by omega)]

theorem hybridFactor_of_block {C G : ℕ} {e : ℕ → ℕ} (h : IsPartition C G e) (df dc : ℕ → K)
    {c g : ℕ} (hc : c < C) (hb : InBlock e c g) : hybridFactor C df dc e g = df g / dc c := by
  unfold hybridFactor
  have key : ∀ n ≤ C, loop n (fun count factor =>
      loop (e (count + 1) - e count)
        (fun k factor => setAt factor (e count + k) (factor (e count + k) / dc count)) factor)
      df g = if c < n then df g / dc c else df g := by
    intro n
    induction n with
    | zero => intro _; simp
    | succ n ih =>
      intro hn
      have hs := h.strict n (by omega)
      rw [loop_succ, factor_inner, ih (by omega)]
      by_cases hcn : c = n
      · subst hcn
        have := hb.1; have := hb.2
        rw [if_pos (by omega), if_neg (by omega), if_pos (by omega)]
      · rw [if_neg]
        · by_cases h1 : c < n
          · rw [if_pos h1, if_pos (by omega)]
          · rw [if_neg h1, if_neg (by omega)]
        · intro hin
          exact hcn (block_unique h hc (by omega : n < C) hb ⟨hin.1, by omega⟩)
  rw [key C (le_refl _), if_pos hc]

theorem increasing_lt {K : Type*} [Preorder K] {G : ℕ} {edges : ℕ → K} (h : Increasing G edges) :
    ∀ j ≤ G, ∀ i < j, edges i < edges j := by
  intro j hj
  induction j with
  | zero => intro i hi; omega
  | succ j ih =>
    intro i hi
    rcases Nat.lt_or_ge i j with h1 | h1
    · exact lt_trans (ih (by omega) i h1) (h j (by omega))
    · have : i = j := by omega
      rw [this]; exact h j (by omega)

theorem diff_pos [LinearOrder K] [IsStrictOrderedRing K] {G : ℕ} {edges : ℕ → K}
    (h : Increasing G edges) {g : ℕ} (hg : g < G) : 0 < diff edges g := by
  unfold diff; exact sub_pos.mpr (h g hg)

theorem diffIdx_pos [LinearOrder K] [IsStrictOrderedRing K] {C G : ℕ} {edges : ℕ → K} {e : ℕ → ℕ}
    (h : Increasing G edges) (he : IsPartition C G e) {c : ℕ} (hc : c < C) :
    0 < diffIdx edges e c := by
  unfold diffIdx
  refine sub_pos.mpr (increasing_lt h _ ?_ _ (he.strict c hc))
  have := he.mono (i := c + 1) (j := C) (by omega) (le_refl _)
  rw [he.last] at this; exact this

theorem block_lt {C G : ℕ} {e : ℕ → ℕ} (he : IsPartition C G e) {c g : ℕ} (hc : c < C)
    (hg : g < e (c + 1)) : g < G := by
  have := he.mono (i := c + 1) (j := C) (by omega) (le_refl _)
  rw [he.last] at this; omega

/-! ### `energy_coarse_index` -/

theorem any_pos_iff (pos : ℕ → ℕ) (r i : ℕ) :
    ((List.range r).any (fun k => pos k == i)) = true ↔ ∃ k < r, pos k = i := by
  simp [List.any_eq_true]

theorem card_hit (pos : ℕ → ℕ) (r coarse : ℕ) (hlt : ∀ k < r, pos k < coarse)
    (hinj : ∀ k < r, ∀ l < r, pos k = pos l → k = l) :
    ((range coarse).filter (fun i => ((List.range r).any (fun k => pos k == i)) = true)).card
      = r := by
  have : (range coarse).filter (fun i => ((List.range r).any (fun k => pos k == i)) = true)
      = (range r).image pos := by
    ext i
    rw [mem_filter, mem_image, any_pos_iff, mem_range]
    constructor
    · rintro ⟨_, k, hk, rfl⟩; exact ⟨k, mem_range.mpr hk, rfl⟩
    · rintro ⟨k, hk, rfl⟩
      exact ⟨hlt k (mem_range.mp hk), k, mem_range.mp hk, rfl⟩
  rw [this, card_image_of_injOn, card_range]
  intro k hk l hl h
  exact hinj k (by simpa using hk) l (by simpa using hl) h

theorem widths_sum (pos : ℕ → ℕ) (fine coarse : ℕ)
    (hlt : ∀ k < fine % coarse, pos k < coarse)
    (hinj : ∀ k < fine % coarse, ∀ l < fine % coarse, pos k = pos l → k = l) :
    ∑ i ∈ range coarse, widthsWith pos fine coarse i = fine := by
  unfold widthsWith
  rw [sum_add_distrib, sum_const, card_range, ← card_filter, card_hit pos _ _ hlt hinj,
    nsmul_eq_mul]
  exact Nat.div_add_mod fine coarse

theorem linspace_lt {coarse r : ℕ} (h1 : 1 ≤ coarse) {k : ℕ} (hk : k < r) :
    linspaceInt coarse r k < coarse := by
  unfold linspaceInt
  split
  · omega
  · rename_i hr
    have hr1 : 0 < r - 1 := by omega
    have : k * (coarse - 1) / (r - 1) ≤ coarse - 1 := by
      apply Nat.div_le_of_le_mul
      exact Nat.mul_le_mul_right _ (by omega)
    omega

theorem linspace_step {coarse r : ℕ} (hrc : r ≤ coarse) (hr : 2 ≤ r) (k : ℕ) :
    linspaceInt coarse r k < linspaceInt coarse r (k + 1) := by
  unfold linspaceInt
  rw [if_neg (by omega), if_neg (by omega)]
  have hr1 : 0 < r - 1 := by omega
  have : k * (coarse - 1) / (r - 1) + 1 ≤ (k + 1) * (coarse - 1) / (r - 1) := by
    rw [← Nat.add_div_right _ hr1]
    apply Nat.div_le_div_right
    rw [Nat.add_mul, Nat.one_mul]
    omega
  omega

theorem linspace_inj {coarse r : ℕ} (hrc : r ≤ coarse) :
    ∀ k < r, ∀ l < r, linspaceInt coarse r k = linspaceInt coarse r l → k = l := by
  intro k hk l hl h
  rcases Nat.lt_or_ge r 2 with h2 | h2
  · omega
  · exact (strictMono_nat_of_lt_succ (linspace_step hrc h2)).injective h

end Discrete1.Hybrid
