import Verif.Model.Ambe
import Verif.Lemmas.Basic
import Mathlib.Tactic.Linarith
import Mathlib.Tactic.NormNum
import Mathlib.Algebra.Order.Field.Basic
import Mathlib.Data.Rat.Defs
import Mathlib.Algebra.Order.Ring.Unbundled.Rat

/-!
# C150: the AmBe source
-/

set_option linter.unusedSectionVars false

namespace Discrete1.Props

open Discrete1.Ambe

variable {K : Type} [Field K] [LinearOrder K] [IsStrictOrderedRing K]

/-- C150, violated: as written, `ambe` raises TypeError whatever it is called with. -/
theorem C150_violation_path (micro : K) (locX groups : ℕ) (edges : ℕ → K) :
    ambe micro locX groups edges = ⟨edges, .error .typeError⟩ := rfl

/-- `m` is the largest of the `groups + 1` edges. -/
def IsTopEdge (groups : ℕ) (edges : ℕ → K) (m : K) : Prop :=
  (∃ i ≤ groups, edges i = m) ∧ ∀ i ≤ groups, edges i ≤ m

theorem maxEdge_top (groups : ℕ) (edges : ℕ → K) : IsTopEdge groups edges (maxEdge groups edges) := by
  unfold maxEdge
  induction groups with
  | zero => exact ⟨⟨0, le_rfl, rfl⟩, fun i hi => by obtain rfl : i = 0 := by omega
                                                    exact le_rfl⟩
  | succ n ih =>
    obtain ⟨⟨k, hk, hk'⟩, hle⟩ := ih
    show IsTopEdge (n + 1) edges (max (loop n (fun i m => max m (edges (i + 1))) (edges 0)) (edges (n + 1)))
    set a := loop n (fun i m => max m (edges (i + 1))) (edges 0)
    refine ⟨?_, fun i hi => ?_⟩
    · rcases le_total a (edges (n + 1)) with h | h
      · exact ⟨n + 1, le_rfl, (max_eq_right h).symm⟩
      · exact ⟨k, by omega, by rw [max_eq_left h, hk']⟩
    · rcases Nat.lt_or_ge i (n + 1) with h | h
      · exact (hle i (by omega)).trans (le_max_left _ _)
      · obtain rfl : i = n + 1 := by omega
        exact le_max_right _ _

theorem top_unique {groups : ℕ} {edges : ℕ → K} {m m' : K} (h : IsTopEdge groups edges m)
    (h' : IsTopEdge groups edges m') : m = m' := by
  obtain ⟨⟨i, hi, rfl⟩, ha⟩ := h
  obtain ⟨⟨j, hj, rfl⟩, hb⟩ := h'
  exact le_antisymm (hb i hi) (ha j hj)

/-- C150 for a readable data file: the source sits in the cell `locX` only; a group whose centre (of the edges in
MeV, as left in the caller's array) lies in bin `b` gets the magnitude of `b`, a group outside all bins nothing. -/
theorem C150_groups_partial (micro : K) (d : Spectrum K) (hd : ∀ a b, a < b → b ≤ d.count → d.edges a < d.edges b)
    (locX groups : ℕ) (edges : ℕ → K) :
    ∃ (source : ℕ → ℕ → K) (after : ℕ → K), ambeWith micro (.ok d) locX groups edges = ⟨after, .ok source⟩ ∧
      (∀ i g, i ≠ locX → source i g = 0) ∧
      ∀ g < groups,
        (∀ b < d.count, d.edges b < (after (g + 1) + after g) / 2 → (after (g + 1) + after g) / 2 ≤ d.edges (b + 1) →
          source locX g = d.magnitude b) ∧
        ((∀ b < d.count, ¬ (d.edges b < (after (g + 1) + after g) / 2 ∧
          (after (g + 1) + after g) / 2 ≤ d.edges (b + 1))) → source locX g = 0) := by
  refine ⟨_, _, rfl, ?_⟩
  set after := toMeV micro groups edges
  have hcen : ∀ g, center after g = (after (g + 1) + after g) / 2 := fun g => by unfold center; ring
  have main : ∀ n, n ≤ d.count →
      (∀ i g, i ≠ locX → loop n (binStep d locX groups (center after)) (fun _ _ => 0) i g = 0) ∧
      ∀ g < groups,
        (∀ b < n, d.edges b < center after g → center after g ≤ d.edges (b + 1) →
          loop n (binStep d locX groups (center after)) (fun _ _ => 0) locX g = d.magnitude b) ∧
        ((∀ b < n, ¬ (d.edges b < center after g ∧ center after g ≤ d.edges (b + 1))) →
          loop n (binStep d locX groups (center after)) (fun _ _ => 0) locX g = 0) := by
    intro n
    induction n with
    | zero => exact fun _ => ⟨fun _ _ _ => rfl, fun g _ => ⟨fun b hb => absurd hb (Nat.not_lt_zero _), fun _ => rfl⟩⟩
    | succ n ih =>
      intro hn
      obtain ⟨h1, h2⟩ := ih (by omega)
      refine ⟨fun i g hi => ?_, fun g hg => ⟨fun b hb hlo hhi => ?_, fun hno => ?_⟩⟩
      · show binStep d locX groups (center after) n _ i g = 0
        unfold binStep
        rw [if_neg (fun h => hi h.1)]
        exact h1 i g hi
      · show binStep d locX groups (center after) n _ locX g = _
        unfold binStep
        rcases Nat.lt_or_ge b n with hbn | hbn
        · rw [if_neg]
          · exact (h2 g hg).1 b hbn hlo hhi
          · rintro ⟨_, _, hlo', _⟩
            have : d.edges (b + 1) ≤ d.edges n := by
              rcases Nat.lt_or_ge (b + 1) n with h | h
              · exact (hd _ _ h (by omega)).le
              · exact le_of_eq (by rw [show b + 1 = n by omega])
            exact absurd (hlo'.trans_le (hhi.trans this)) (lt_irrefl _)
        · obtain rfl : b = n := by omega
          rw [if_pos ⟨rfl, hg, hlo, hhi⟩]
      · show binStep d locX groups (center after) n _ locX g = 0
        unfold binStep
        rw [if_neg (fun h => hno n (by omega) h.2.2)]
        exact (h2 g hg).2 fun b hb => hno b (by omega)
  obtain ⟨h1, h2⟩ := main d.count le_rfl
  refine ⟨h1, fun g hg => ?_⟩
  simp only [← hcen]
  exact h2 g hg

/-- C150, violated: the caller's energy grid is rescaled in place when its largest edge exceeds 20. -/
theorem C150_violation_edges_modified (micro : K) (d : Spectrum K) (locX groups : ℕ) (edges : ℕ → K) (top : K)
    (ht : IsTopEdge groups edges top) (h : 20 < top) :
    (ambeWith micro (.ok d) locX groups edges).edges = fun i => edges i * micro := by
  show toMeV micro groups edges = _
  unfold toMeV
  rw [top_unique (maxEdge_top groups edges) ht, if_pos h]

/-- The grid is left alone when it is in MeV up to 20. -/
theorem C150_edges_kept (micro : K) (d : Spectrum K) (locX groups : ℕ) (edges : ℕ → K) (top : K)
    (ht : IsTopEdge groups edges top) (h : top ≤ 20) :
    (ambeWith micro (.ok d) locX groups edges).edges = edges := by
  show toMeV micro groups edges = _
  unfold toMeV
  rw [top_unique (maxEdge_top groups edges) ht, if_neg (not_lt.mpr h)]

/-- A second call with the array the first call left behind gives the same source, if the grid ends below
20 MeV (`micro * top ≤ 20`). -/
theorem C150_second_call (micro : K) (hm : 0 ≤ micro) (d : Spectrum K) (locX groups : ℕ) (edges : ℕ → K) (top : K)
    (ht : IsTopEdge groups edges top) (h : top * micro ≤ 20) :
    ambeWith micro (.ok d) locX groups (ambeWith micro (.ok d) locX groups edges).edges
      = ambeWith micro (.ok d) locX groups edges := by
  have e : toMeV micro groups (toMeV micro groups edges) = toMeV micro groups edges := by
    rcases lt_or_ge 20 top with h20 | h20
    · have e1 : toMeV micro groups edges = fun i => edges i * micro :=
        C150_violation_edges_modified micro d locX groups edges top ht h20
      rw [e1]
      refine C150_edges_kept micro d locX groups _ (top * micro) ?_ h
      obtain ⟨⟨i, hi, rfl⟩, hle⟩ := ht
      exact ⟨⟨i, hi, rfl⟩, fun j hj => mul_le_mul_of_nonneg_right (hle j hj) hm⟩
    · have e1 : toMeV micro groups edges = edges := C150_edges_kept micro d locX groups edges top ht h20
      rw [e1, e1]
  show ambeWith micro (.ok d) locX groups (toMeV micro groups edges) = _
  unfold ambeWith
  simp only [e]

/-- ... and is converted a second time otherwise. -/
theorem C150_violation_second_call (micro : K) (hm : 0 ≤ micro) (d : Spectrum K) (locX groups : ℕ) (edges : ℕ → K)
    (top : K) (ht : IsTopEdge groups edges top) (h0 : 20 < top) (h : 20 < top * micro) :
    (ambeWith micro (.ok d) locX groups (ambeWith micro (.ok d) locX groups edges).edges).edges
      = fun i => edges i * micro * micro := by
  rw [C150_violation_edges_modified micro d locX groups edges top ht h0]
  refine C150_violation_edges_modified micro d locX groups _ (top * micro) ?_ h
  obtain ⟨⟨i, hi, rfl⟩, hle⟩ := ht
  exact ⟨⟨i, hi, rfl⟩, fun j hj => mul_le_mul_of_nonneg_right (hle j hj) hm⟩

/-- Two bins, three groups in eV: the second and the third group lie in the bins, the first one below them. -/
def exSpectrum : Spectrum ℚ := ⟨2, fun b => b + 1, fun b => 10 * (b + 1)⟩

/-- Edges 0, 1, 2, 3 MeV, given in eV. -/
def exAmbeEdges : ℕ → ℚ := fun i => 1000000 * i

example : IsTopEdge 3 exAmbeEdges 3000000 :=
  ⟨⟨3, le_rfl, by norm_num [exAmbeEdges]⟩, fun i hi => by
    have h : (i : ℚ) ≤ 3 := by exact_mod_cast hi
    show 1000000 * (i : ℚ) ≤ 3000000
    linarith⟩

example := C150_groups_partial (1 / 1000000) exSpectrum
  (fun a b h _ => by show (a : ℚ) + 1 < b + 1
                     have : (a : ℚ) < b := by exact_mod_cast h
                     linarith) 5 3 exAmbeEdges

example : ((ambeWith (1 / 1000000) (.ok exSpectrum) 5 3 exAmbeEdges).result.toOption.map fun s =>
    (s 5 0, s 5 1, s 5 2, s 4 1)) = some (0, 10, 20, 0) := by
  decide +kernel

/-- 30 MeV in eV: the second call converts again. -/
example : IsTopEdge 1 (fun i : ℕ => 30000000 * (i : ℚ)) 30000000 ∧ (20 : ℚ) < 30000000 ∧
    (20 : ℚ) < 30000000 * (1 / 1000000) :=
  ⟨⟨⟨1, le_rfl, by norm_num⟩, fun i hi => by
    have h : (i : ℚ) ≤ 1 := by exact_mod_cast hi
    show 30000000 * (i : ℚ) ≤ 30000000
    linarith⟩, by norm_num, by norm_num⟩

end Discrete1.Props
