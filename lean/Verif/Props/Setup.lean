import Verif.Model.Velocity
import Verif.Lemmas.Basic
import Verif.Spec.Transport
import Mathlib.Data.List.Sort
import Mathlib.Data.List.GetD
import Mathlib.Tactic.Linarith
import Mathlib.Tactic.NormNum
import Mathlib.Tactic.FieldSimp
import Mathlib.Tactic.Positivity
import Mathlib.Tactic.IntervalCases

/-!
# C45-C51, C79, C80: problem set-up
-/

set_option linter.unusedSectionVars false
set_option linter.unusedSimpArgs false

namespace Discrete1.Props

open Discrete1.Tools Discrete1.Spec Discrete1.Setup

variable {K : Type*} [Field K] [LinearOrder K] [IsStrictOrderedRing K]

/-! ## C45: angular_x -/

theorem sortPairs_perm (g : List (K × K)) : (sortPairs g).Perm g := List.mergeSort_perm _ _

theorem sortPairs_sorted (g : List (K × K)) : (sortPairs g).Pairwise fun a b => a.1 ≤ b.1 := by
  have := List.pairwise_mergeSort (le := fun a b : K × K => decide (a.1 ≤ b.1))
    (fun a b c h1 h2 => by simp only [decide_eq_true_eq] at *; exact h1.trans h2)
    (fun a b => by simp only [Bool.or_eq_true, decide_eq_true_eq]; exact le_total _ _) g
  exact this.imp fun h => by simpa using h

/-- The quadrature with weights divided by their sum. -/
def normalisedPairs (g : List (K × K)) : List (K × K) := g.map fun p => (p.1, p.2 / (g.map (·.2)).sum)

theorem normalised_sum (g : List (K × K)) (hw : (g.map (·.2)).sum ≠ 0) :
    ((normalisedPairs g).map (·.2)).sum = 1 := by
  have h : ∀ (l : List (K × K)) (s : K), ((l.map fun p => (p.1, p.2 / s)).map (·.2)).sum
      = (l.map (·.2)).sum / s := by
    intro l s
    induction l with
    | nil => simp
    | cons a t ih => simp only [List.map_cons, List.sum_cons, ih, add_div]
  unfold normalisedPairs
  rw [h, div_self hw]

/-- C45: for `[0,0]`, `[1,0]` and `[0,1]` the result has weights summing to one, is a rearrangement of the
quadrature (each ordinate keeps its weight), ascending for `[1,0]` and descending for `[0,1]`. -/
theorem C45_normalised_and_ordered_partial (gauss : List (K × K)) (hw : (gauss.map (·.2)).sum ≠ 0) :
    (∃ l, angularX gauss (.list 0 0) = .ok l ∧ (l.map (·.2)).sum = 1 ∧ l = normalisedPairs gauss) ∧
    (∃ l, angularX gauss (.list 1 0) = .ok l ∧ (l.map (·.2)).sum = 1 ∧ l.Perm (normalisedPairs gauss) ∧
      (l.map (·.1)).Pairwise (· ≤ ·)) ∧
    (∃ l, angularX gauss (.list 0 1) = .ok l ∧ (l.map (·.2)).sum = 1 ∧ l.Perm (normalisedPairs gauss) ∧
      (l.map (·.1)).Pairwise (· ≥ ·)) := by
  have hp := sortPairs_perm (normalisedPairs gauss)
  have hs := sortPairs_sorted (normalisedPairs gauss)
  refine ⟨⟨_, rfl, normalised_sum gauss hw, rfl⟩, ⟨_, rfl, ?_, hp, ?_⟩, ⟨_, rfl, ?_, ?_, ?_⟩⟩
  · exact ((hp.map _).sum_eq).trans (normalised_sum gauss hw)
  · exact List.pairwise_map.mpr hs
  · have h2 : (sortPairs (normalisedPairs gauss)).reverse.Perm (normalisedPairs gauss) :=
      (List.reverse_perm _).trans hp
    exact ((h2.map _).sum_eq).trans (normalised_sum gauss hw)
  · exact (List.reverse_perm _).trans hp
  · rw [List.pairwise_map, List.pairwise_reverse]
    exact hs

/-- C45 (consequence for the sweeps): if the quadrature has distinct nonzero ordinates and contains
`(-mu, w)` whenever it contains `(mu, w)`, position `A-1-n` of the result for a reflecting left (right)
face holds the mirror direction of position `n`, with the same weight, and every direction that enters
through the reflecting face is swept after its mirror. -/
theorem C45_mirror_order (gauss : List (K × K)) (hnd : (gauss.map (·.1)).Nodup)
    (hne : ∀ p ∈ gauss, p.1 ≠ 0) (hsym : (gauss.map fun p => (-p.1, p.2)).Perm gauss) :
    (∃ l, angularX gauss (.list 1 0) = .ok l ∧ l.length = gauss.length ∧
      Symmetric l.length (fun n => (l.getD n (0, 0)).1) ∧
      (∀ n < l.length, (l.getD (l.length - 1 - n) (0, 0)).2 = (l.getD n (0, 0)).2) ∧
      ∀ n < l.length, 0 < (l.getD n (0, 0)).1 → l.length - 1 - n < n) ∧
    (∃ l, angularX gauss (.list 0 1) = .ok l ∧ l.length = gauss.length ∧
      Symmetric l.length (fun n => (l.getD n (0, 0)).1) ∧
      (∀ n < l.length, (l.getD (l.length - 1 - n) (0, 0)).2 = (l.getD n (0, 0)).2) ∧
      ∀ n < l.length, (l.getD n (0, 0)).1 < 0 → l.length - 1 - n < n) := by
  set g := normalisedPairs gauss with hg
  set s := sortPairs g with hs
  have hperm : s.Perm g := sortPairs_perm g
  have hfst : g.map (·.1) = gauss.map (·.1) := by
    rw [hg, normalisedPairs, List.map_map]; rfl
  have hlen : s.length = gauss.length := by
    rw [hperm.length_eq, hg, normalisedPairs, List.length_map]
  have hndS : (s.map (·.1)).Nodup := ((hperm.map _).nodup_iff).mpr (hfst ▸ hnd)
  have hlt : s.Pairwise fun a b => a.1 < b.1 := by
    have h1 := sortPairs_sorted g
    have h2 : s.Pairwise fun a b => a.1 ≠ b.1 := List.pairwise_map.mp hndS
    exact (h1.and h2).imp fun h => lt_of_le_of_ne h.1 h.2
  have hneS : ∀ p ∈ s, p.1 ≠ 0 := by
    intro p hp
    have h1 : p ∈ g := hperm.mem_iff.mp hp
    rw [hg, normalisedPairs, List.mem_map] at h1
    obtain ⟨q, hq, rfl⟩ := h1
    exact hne q hq
  have hsymg : (g.map fun p => (-p.1, p.2)).Perm g := by
    rw [hg]
    unfold normalisedPairs
    rw [List.map_map]
    have := hsym.map fun p : K × K => (p.1, p.2 / (gauss.map (·.2)).sum)
    rw [List.map_map] at this
    exact this
  have hrev : (s.reverse.map fun p => (-p.1, p.2)) = s := by
    refine List.Perm.eq_of_pairwise (le := fun a b : K × K => a.1 < b.1) (fun a b _ _ h1 h2 =>
      absurd h1 (lt_asymm h2)) ?_ hlt ?_
    · rw [List.pairwise_map, List.pairwise_reverse]
      exact hlt.imp fun h => neg_lt_neg h
    · refine (((List.reverse_perm s).trans hperm).map _).trans (hsymg.trans hperm.symm)
  have hget : ∀ n < s.length, s.getD (s.length - 1 - n) (0, 0)
      = (-(s.getD n (0, 0)).1, (s.getD n (0, 0)).2) := by
    intro n hn
    have h1 : s.getD (s.length - 1 - n) (0, 0)
        = (s.reverse.map fun p => (-p.1, p.2)).getD (s.length - 1 - n) (0, 0) := by rw [hrev]
    rw [h1, List.getD_eq_getElem _ _ (by rw [List.length_map, List.length_reverse]; omega),
      List.getElem_map, List.getElem_reverse, List.getD_eq_getElem _ _ hn]
    have e : s.length - 1 - (s.length - 1 - n) = n := by omega
    simp only [e]
  have hmono : ∀ i j, i < j → j < s.length → (s.getD i (0, 0)).1 < (s.getD j (0, 0)).1 := by
    intro i j hij hj
    rw [List.getD_eq_getElem _ _ (by omega), List.getD_eq_getElem _ _ hj]
    exact List.pairwise_iff_getElem.mp hlt i j (by omega) hj hij
  have hnz : ∀ n < s.length, (s.getD n (0, 0)).1 ≠ 0 := fun n hn => by
    rw [List.getD_eq_getElem _ _ hn]; exact hneS _ (List.getElem_mem hn)
  have hrevget : ∀ n < s.length, s.reverse.getD n (0, 0) = s.getD (s.length - 1 - n) (0, 0) := by
    intro n hn
    rw [List.getD_eq_getElem _ _ (by rw [List.length_reverse]; exact hn), List.getElem_reverse,
      List.getD_eq_getElem _ _ (by omega)]
  refine ⟨⟨s, rfl, hlen, ⟨fun n hn => by rw [hget n hn], hnz⟩, fun n hn => by rw [hget n hn],
    fun n hn hpos => ?_⟩, ⟨s.reverse, rfl, by rw [List.length_reverse, hlen], ⟨?_, ?_⟩, ?_, ?_⟩⟩
  · by_contra hle
    push Not at hle
    have h1 := hget n hn
    rcases Nat.eq_or_lt_of_le hle with h | h
    · rw [← h] at h1
      have := congrArg Prod.fst h1
      simp only at this
      linarith
    · have h2 := hmono n _ h (by omega)
      rw [h1] at h2
      simp only at h2
      linarith
  · intro n hn
    rw [List.length_reverse] at hn ⊢
    rw [hrevget n hn, hrevget _ (by omega), hget _ (by omega)]
  · intro n hn
    rw [List.length_reverse] at hn
    rw [hrevget n hn]; exact hnz _ (by omega)
  · intro n hn
    rw [List.length_reverse] at hn ⊢
    rw [hrevget n hn, hrevget _ (by omega), hget _ (by omega)]
  · intro n hn hneg
    rw [List.length_reverse] at hn ⊢
    rw [hrevget n hn, hget n hn] at hneg
    simp only at hneg
    by_contra hle
    push Not at hle
    have h1 := hget n hn
    rcases Nat.eq_or_lt_of_le hle with h | h
    · rw [← h] at h1
      have := congrArg Prod.fst h1
      simp only at this
      linarith
    · have h2 := hmono n _ h (by omega)
      rw [h1] at h2
      simp only at h2
      linarith

/-- C45 (violation): with both faces reflecting, and with `bc_x` given as a tuple, `angular_x` raises
UnboundLocalError for every quadrature; with a numpy array it raises ValueError as soon as a face
reflects. -/
theorem C45_violation (gauss : List (K × K)) :
    angularX gauss (.list 1 1) = .error .unboundLocal ∧
    (∀ l r, 0 < l + r → angularX gauss (.tuple l r) = .error .unboundLocal) ∧
    (∀ l r, 0 < l + r → angularX gauss (.array l r) = .error .valueError) := by
  refine ⟨rfl, fun l r h => ?_, fun l r h => ?_⟩ <;>
  · unfold angularX
    have h' : ∀ b : BcX, b.sum = l + r → 0 < b.sum := fun b hb => hb ▸ h
    rw [if_pos (h' _ rfl)]

/-- A symmetric quadrature of four ordinates, given unsorted. -/
example : ([(1 / 3, 1), (-2 / 3, 2), (-1 / 3, 1), (2 / 3, 2)] : List (ℚ × ℚ)).map (·.1) |>.Nodup := by decide +kernel

example : (([(1 / 3, 1), (-1 / 3, 1)] : List (ℚ × ℚ)).map fun p => (-p.1, p.2)).Perm
    [(1 / 3, 1), (-1 / 3, 1)] := by decide +kernel

/-! ## C46: spatial1d -/

/-- `k` is the first of the edges `e 0, ..., e (n-1)` nearest to `s`. -/
def IsNearest (n : ℕ) (e : ℕ → K) (s : K) (k : ℕ) : Prop :=
  k < n ∧ (∀ j < n, |s - e k| ≤ |s - e j|) ∧ ∀ j < k, |s - e k| < |s - e j|

theorem argminAbs_nearest (n : ℕ) (hn : 0 < n) (e : ℕ → K) (s : K) :
    IsNearest n e s (argminAbs n e s) := by
  obtain ⟨n, rfl⟩ : ∃ m, n = m + 1 := ⟨n - 1, by omega⟩
  have key : ∀ n, IsNearest (n + 1) e s (argminAbs (n + 1) e s) := by
    intro n
    induction n with
    | zero =>
      refine ⟨by simp [argminAbs, loop], fun j hj => ?_, fun j hj => ?_⟩
      · have : j = 0 := by omega
        subst this; simp [argminAbs, loop]
      · simp [argminAbs, loop] at hj
    | succ n ih =>
      obtain ⟨h1, h2, h3⟩ := ih
      have e1 : argminAbs (n + 1 + 1) e s = if |s - e (n + 1)| < |s - e (argminAbs (n + 1) e s)| then n + 1
          else argminAbs (n + 1) e s := rfl
      rw [e1]
      split_ifs with h
      · refine ⟨by omega, fun j hj => ?_, fun j hj => lt_of_lt_of_le h (h2 j (by omega))⟩
        rcases Nat.lt_or_ge j (n + 1) with hj' | hj'
        · exact h.le.trans (h2 j hj')
        · have : j = n + 1 := by omega
          subst this; exact le_refl _
      · refine ⟨by omega, fun j hj => ?_, h3⟩
        rcases Nat.lt_or_ge j (n + 1) with hj' | hj'
        · exact h2 j hj'
        · have : j = n + 1 := by omega
          subst this; exact not_lt.mp h
  exact key n

theorem nearest_unique {n : ℕ} {e : ℕ → K} {s : K} {k k' : ℕ} (h : IsNearest n e s k)
    (h' : IsNearest n e s k') : k = k' := by
  rcases Nat.lt_trichotomy k k' with hlt | heq | hgt
  · exact absurd (h'.2.2 k hlt) (not_lt.mpr (h.2.1 k' h'.1))
  · exact heq
  · exact absurd (h.2.2 k' hgt) (not_lt.mpr (h'.2.1 k h.1))

/-- Cell `i` lies between the edges nearest to the two ends of the region. -/
def CoversCell (n : ℕ) (e : ℕ → K) (r : K × K) (i : ℕ) : Prop :=
  ∃ k1 k2, IsNearest n e r.1 k1 ∧ IsNearest n e r.2 k2 ∧ k1 ≤ i ∧ i < k2

/-- A text that contains neither of the separators. -/
def Plain (t : List Char) : Prop := ',' ∉ t ∧ '-' ∉ t

/-- The text of a region `start-stop`. -/
def regionText (r : List Char × List Char) : List Char := r.1 ++ '-' :: r.2

/-- The text of a layer: its regions separated by commas. -/
def layerText (rs : List (List Char × List Char)) : List Char :=
  [','].intercalate (rs.map regionText)

theorem splitChar_plain {c : Char} {t : List Char} (h : c ∉ t) : splitChar c t = [t] := by
  induction t with
  | nil => rfl
  | cons x t ih =>
    simp only [List.mem_cons, not_or] at h
    simp only [splitChar, if_neg (Ne.symm h.1), ih h.2]

theorem splitChar_append {c : Char} {t u : List Char} (h : c ∉ t) :
    splitChar c (t ++ c :: u) = t :: splitChar c u := by
  induction t with
  | nil => simp [splitChar]
  | cons x t ih =>
    simp only [List.mem_cons, not_or] at h
    simp only [List.cons_append, splitChar, if_neg (Ne.symm h.1), ih h.2]

theorem splitChar_intercalate {c : Char} (parts : List (List Char)) (hne : parts ≠ [])
    (h : ∀ t ∈ parts, c ∉ t) : splitChar c ([c].intercalate parts) = parts := by
  induction parts with
  | nil => exact absurd rfl hne
  | cons t rest ih =>
    cases rest with
    | nil => simpa [List.intercalate] using splitChar_plain (h t (by simp))
    | cons u rest =>
      have e : [c].intercalate (t :: u :: rest) = t ++ c :: [c].intercalate (u :: rest) := by
        simp [List.intercalate, List.intersperse]
      rw [e, splitChar_append (h t (by simp)), ih (by simp) fun v hv => h v (by simp [hv])]

/-- All regions of all layers, in the order in which they are written, with their labels and numbers. -/
def regions {L : Type*} (layers : List (L × List (List Char × List Char))) (value : List Char → K) :
    List (L × K × K) :=
  layers.flatMap fun layer => layer.2.map fun r => (layer.1, value r.1, value r.2)

theorem fill_spec {L : Type*} (parse : List Char → Option K) (value : List Char → K) (n : ℕ)
    (hn : 0 < n) (e : ℕ → K) (layers : List (L × List (List Char × List Char)))
    (hl : ∀ layer ∈ layers, layer.2 ≠ [] ∧ ∀ r ∈ layer.2, Plain r.1 ∧ Plain r.2 ∧
      parse r.1 = some (value r.1) ∧ parse r.2 = some (value r.2)) (init : ℕ → L) :
    ∃ map : ℕ → L, (layers.map fun l => (l.1, layerText l.2)).foldlM (fun map layer =>
        (splitChar ',' layer.2).foldlM (fun map region => fillRegion parse n e layer.1 map region) map)
        init = Except.ok (ε := PyErr) map ∧
      ∀ i, (∃ pre r post, regions layers value = pre ++ r :: post ∧ CoversCell n e r.2 i ∧
          (∀ q ∈ post, ¬ CoversCell n e q.2 i) ∧ map i = r.1) ∨
        ((∀ r ∈ regions layers value, ¬ CoversCell n e r.2 i) ∧ map i = init i) := by
  -- one region
  have hcov : ∀ (s t : K) (i : ℕ), (argminAbs n e s ≤ i ∧ i < argminAbs n e t) ↔ CoversCell n e (s, t) i := by
    intro s t i
    constructor
    · intro h
      exact ⟨_, _, argminAbs_nearest n hn e s, argminAbs_nearest n hn e t, h.1, h.2⟩
    · rintro ⟨k1, k2, h1, h2, h3, h4⟩
      rw [nearest_unique (argminAbs_nearest n hn e s) h1, nearest_unique (argminAbs_nearest n hn e t) h2]
      exact ⟨h3, h4⟩
  have hone : ∀ (lab : L) (map : ℕ → L) (r : List Char × List Char), Plain r.1 → Plain r.2 →
      parse r.1 = some (value r.1) → parse r.2 = some (value r.2) →
      ∃ map', fillRegion parse n e lab map (regionText r) = .ok map' ∧
        ∀ i, (CoversCell n e (value r.1, value r.2) i ∧ map' i = lab) ∨
          (¬ CoversCell n e (value r.1, value r.2) i ∧ map' i = map i) := by
    intro lab map r h1 h2 h3 h4
    unfold fillRegion regionText
    rw [splitChar_append h1.2, splitChar_plain h2.2]
    simp only [h3, h4]
    refine ⟨_, rfl, fun i => ?_⟩
    by_cases h : argminAbs n e (value r.1) ≤ i ∧ i < argminAbs n e (value r.2)
    · left; exact ⟨(hcov _ _ _).mp h, by simp only [h, and_self, if_true]⟩
    · right; exact ⟨fun hc => h ((hcov _ _ _).mpr hc), by simp only [if_neg h]⟩
  -- one layer
  have hlayer : ∀ (lab : L) (rs : List (List Char × List Char)) (map : ℕ → L),
      (∀ r ∈ rs, Plain r.1 ∧ Plain r.2 ∧ parse r.1 = some (value r.1) ∧ parse r.2 = some (value r.2)) →
      ∃ map', (rs.map regionText).foldlM (fun map region => fillRegion parse n e lab map region) map
          = Except.ok map' ∧
        ∀ i, (∃ pre r post, (rs.map fun r => (lab, value r.1, value r.2)) = pre ++ r :: post ∧
            CoversCell n e r.2 i ∧ (∀ q ∈ post, ¬ CoversCell n e q.2 i) ∧ map' i = r.1) ∨
          ((∀ r ∈ rs.map fun r => (lab, value r.1, value r.2), ¬ CoversCell n e r.2 i) ∧ map' i = map i) := by
    intro lab rs
    induction rs with
    | nil => intro map _; exact ⟨map, rfl, fun i => Or.inr ⟨by simp, rfl⟩⟩
    | cons r rs ih =>
      intro map h
      obtain ⟨p1, p2, p3, p4⟩ := h r (by simp)
      obtain ⟨m1, hm1, hs1⟩ := hone lab map r p1 p2 p3 p4
      obtain ⟨m2, hm2, hs2⟩ := ih m1 fun q hq => h q (by simp [hq])
      refine ⟨m2, ?_, fun i => ?_⟩
      · simp only [List.map_cons, List.foldlM_cons, hm1]
        exact hm2
      · rcases hs2 i with ⟨pre, q, post, he, hc, hpost, hv⟩ | ⟨hno, hv⟩
        · left
          exact ⟨(lab, value r.1, value r.2) :: pre, q, post, by simp [he], hc, hpost, hv⟩
        · rcases hs1 i with ⟨hc, hv1⟩ | ⟨hc, hv1⟩
          · left
            exact ⟨[], (lab, value r.1, value r.2), _, by simp only [List.map_cons, List.nil_append],
              hc, hno, by rw [hv, hv1]⟩
          · right
            refine ⟨fun q hq => ?_, by rw [hv, hv1]⟩
            rw [List.map_cons, List.mem_cons] at hq
            rcases hq with rfl | hq
            · exact hc
            · exact hno q hq
  induction layers generalizing init with
  | nil => exact ⟨init, rfl, fun i => Or.inr ⟨by simp [regions], rfl⟩⟩
  | cons layer layers ih =>
    obtain ⟨hne, hrs⟩ := hl layer (by simp)
    obtain ⟨m1, hm1, hs1⟩ := hlayer layer.1 layer.2 init hrs
    obtain ⟨m2, hm2, hs2⟩ := ih (fun q hq => hl q (by simp [hq])) m1
    refine ⟨m2, ?_, fun i => ?_⟩
    · rw [List.map_cons, List.foldlM_cons]
      simp only [layerText]
      rw [splitChar_intercalate _ (by simpa using hne) (by
        intro t ht
        obtain ⟨r, hr, rfl⟩ := List.mem_map.mp ht
        obtain ⟨p1, p2, _, _⟩ := hrs r hr
        simp only [regionText, List.mem_append, List.mem_cons, not_or]
        exact ⟨p1.1, by decide, p2.1⟩), hm1]
      exact hm2
    · have hreg : regions (layer :: layers) value
          = (layer.2.map fun r => (layer.1, value r.1, value r.2)) ++ regions layers value := by
        simp [regions]
      rw [hreg]
      rcases hs2 i with ⟨pre, q, post, he, hc, hpost, hv⟩ | ⟨hno, hv⟩
      · left
        exact ⟨_ ++ pre, q, post, by rw [he, List.append_assoc], hc, hpost, hv⟩
      · rcases hs1 i with ⟨pre, q, post, he, hc, hpost, hv1⟩ | ⟨hno1, hv1⟩
        · left
          refine ⟨pre, q, post ++ regions layers value, by rw [he]; simp, hc, fun x hx => ?_,
            by rw [hv, hv1]⟩
          rcases List.mem_append.mp hx with hx | hx
          · exact hpost x hx
          · exact hno x hx
        · right
          refine ⟨fun x hx => ?_, by rw [hv, hv1]⟩
          rcases List.mem_append.mp hx with hx | hx
          · exact hno1 x hx
          · exact hno x hx

/-- C46: for layers written as documented (regions `start-stop` separated by commas, numbers without
dashes), `spatial1d` without the check gives each cell the label of the *last* region covering it, and
`-1` to cells no region covers; with the check it returns exactly that map if no cell has the value `-1`,
and raises AssertionError otherwise. -/
theorem C46_last_region_wins {L : Type*} [DecidableEq L] (unset : L) (parse : List Char → Option K)
    (value : List Char → K) (n : ℕ) (hn : 0 < n) (e : ℕ → K)
    (layers : List (L × List (List Char × List Char)))
    (hl : ∀ layer ∈ layers, layer.2 ≠ [] ∧ ∀ r ∈ layer.2, Plain r.1 ∧ Plain r.2 ∧
      parse r.1 = some (value r.1) ∧ parse r.2 = some (value r.2)) :
    ∃ map : ℕ → L,
      spatial1d unset parse (layers.map fun l => (l.1, layerText l.2)) n e false = .ok map ∧
      (∀ i, (∃ pre r post, regions layers value = pre ++ r :: post ∧ CoversCell n e r.2 i ∧
          (∀ q ∈ post, ¬ CoversCell n e q.2 i) ∧ map i = r.1) ∨
        ((∀ r ∈ regions layers value, ¬ CoversCell n e r.2 i) ∧ map i = unset)) ∧
      ((∀ i < n - 1, map i ≠ unset) →
        spatial1d unset parse (layers.map fun l => (l.1, layerText l.2)) n e true = .ok map) ∧
      ((∃ i < n - 1, map i = unset) →
        spatial1d unset parse (layers.map fun l => (l.1, layerText l.2)) n e true
          = .error .assertion) := by
  obtain ⟨map, hm, hs⟩ := fill_spec parse value n hn e layers hl (fun _ => unset)
  have hany : (List.range (n - 1)).any (fun i => decide (map i = unset)) = true
      ↔ ∃ i < n - 1, map i = unset := by
    simp [List.any_eq_true]
  refine ⟨map, ?_, hs, fun h => ?_, fun h => ?_⟩
  · unfold spatial1d; rw [hm]; simp
  · unfold spatial1d; rw [hm]
    simp only
    rw [if_neg]
    rintro ⟨_, h2⟩
    obtain ⟨i, hi, hv⟩ := hany.mp h2
    exact h i hi hv
  · unfold spatial1d; rw [hm]
    have := hany.mpr h
    simp only [this, and_self, if_true]

/-- C46: layers listed contiguously from the first to the last edge fill every cell, wherever the
interfaces lie (on an edge or not). -/
theorem C46_contiguous_regions_cover (n : ℕ) (hn : 2 ≤ n) (e : ℕ → K) (he : ∀ i j, i < j → j < n → e i < e j)
    (m : ℕ) (b : ℕ → K) (h0 : b 0 = e 0) (hm : b m = e (n - 1)) :
    ∀ i < n - 1, ∃ j < m, CoversCell n e (b j, b (j + 1)) i := by
  have hex : ∀ s i, i < n → s = e i → IsNearest n e s i := by
    intro s i hi hs
    subst hs
    refine ⟨hi, fun j _ => by rw [sub_self, abs_zero]; exact abs_nonneg _, fun j hj => ?_⟩
    rw [sub_self, abs_zero]
    exact abs_pos.mpr (sub_ne_zero.mpr (ne_of_gt (he j i hj hi)))
  intro i hi
  have h0' := nearest_unique (argminAbs_nearest n (by omega) e (b 0)) (hex _ 0 (by omega) h0)
  have hm' := nearest_unique (argminAbs_nearest n (by omega) e (b m)) (hex _ (n - 1) (by omega) hm)
  by_contra hno
  push Not at hno
  have : ∀ j ≤ m, argminAbs n e (b j) ≤ i := by
    intro j
    induction j with
    | zero => intro _; omega
    | succ j ih =>
      intro hj
      by_contra hlt
      push Not at hlt
      exact hno j (by omega) ⟨_, _, argminAbs_nearest n (by omega) e _, argminAbs_nearest n (by omega) e _,
        ih (by omega), hlt⟩
  have := this m (le_refl _)
  omega

theorem splitChar_length (c : Char) (t : List Char) : (splitChar c t).length = t.count c + 1 := by
  induction t with
  | nil => rfl
  | cons x t ih =>
    unfold splitChar
    by_cases h : x = c
    · rw [if_pos h, List.length_cons, ih, h, List.count_cons_self]
    · rw [if_neg h, List.count_cons_of_ne (by simpa using h)]
      cases hs : splitChar c t with
      | nil => rw [hs] at ih; simp at ih
      | cons a as => rw [hs] at ih; simpa using ih

/-- C46 (limit of the format): a region text whose number of dashes is not one, such as `1e-3-2` or
`-1-1`, always raises ValueError. -/
theorem C46_dash_in_number_rejected {L : Type*} [DecidableEq L] (unset : L) (parse : List Char → Option K)
    (lab : L) (t : List Char) (hc : ',' ∉ t) (ht : t.count '-' ≠ 1) (rest : List (L × List Char))
    (n : ℕ) (e : ℕ → K) (check : Bool) :
    spatial1d unset parse ((lab, t) :: rest) n e check = .error .valueError := by
  have h1 : ∀ map, fillRegion parse n e lab map t = .error .valueError := by
    intro map
    unfold fillRegion
    have hlen := splitChar_length '-' t
    split
    · next a b h => rw [h] at hlen; simp at hlen; omega
    · rfl
  unfold spatial1d
  rw [List.foldlM_cons]
  simp only [splitChar_plain hc, List.foldlM_cons, h1]
  rfl

/-- Two layers on four cells; the numbers are the texts of digits. -/
example : (match spatial1d (-1 : ℤ) (fun t => if t = "0".toList then some (0 : ℚ) else
      if t = "2".toList then some 2 else if t = "4".toList then some 4 else none)
      ([((0 : ℤ), [("0".toList, "4".toList)]), (1, [("2".toList, "4".toList)])].map
        fun l => (l.1, layerText l.2)) 5 (fun i => (i : ℚ)) true with
      | .ok map => decide (map 0 = 0 ∧ map 1 = 0 ∧ map 2 = 1 ∧ map 3 = 1)
      | .error _ => false) = true := by decide +kernel

/-! ## C47: gamma_time_steps -/

/-- The edges with `f a b` inserted between consecutive edges `a`, `b`. -/
def weave (f : K → K → K) : List K → List K
  | [] => []
  | [a] => [a]
  | a :: b :: t => a :: f a b :: weave f (b :: t)

theorem weave_perm (f : K → K → K) (l : List K) : (l ++ List.zipWith f l l.tail).Perm (weave f l) := by
  induction l with
  | nil => exact List.Perm.refl _
  | cons a t ih =>
    cases t with
    | nil => simp [weave]
    | cons b t =>
      simp only [weave, List.tail_cons, List.zipWith_cons_cons, List.cons_append]
      refine List.Perm.cons a ?_
      have h1 : (b :: (t ++ f a b :: List.zipWith f (b :: t) t)).Perm
          (f a b :: (b :: t ++ List.zipWith f (b :: t) t)) := by
        rw [← List.cons_append]
        exact List.perm_middle
      exact h1.trans (List.Perm.cons _ ih)

theorem weave_lower (f : K → K → K) (hf : ∀ a b, a < b → a < f a b ∧ f a b < b) (l : List K)
    (hl : l.Pairwise (· < ·)) : ∀ a, (∀ x ∈ l, a < x) → ∀ x ∈ weave f l, a < x := by
  induction l with
  | nil => intro a _ x hx; simp [weave] at hx
  | cons b t ih =>
    intro a ha x hx
    cases t with
    | nil => simp [weave] at hx; subst hx; exact ha _ (by simp)
    | cons c t =>
      simp only [weave, List.mem_cons] at hx
      have hbc : b < c := (List.pairwise_cons.mp hl).1 c (by simp)
      rcases hx with rfl | rfl | hx
      · exact ha _ (by simp)
      · exact (ha b (by simp)).trans (hf b c hbc).1
      · exact ih (List.pairwise_cons.mp hl).2 a (fun y hy => ha y (by simp [hy])) x hx

theorem weave_sorted (f : K → K → K) (hf : ∀ a b, a < b → a < f a b ∧ f a b < b) (l : List K)
    (hl : l.Pairwise (· < ·)) : (weave f l).Pairwise (· < ·) := by
  induction l with
  | nil => simp [weave]
  | cons a t ih =>
    cases t with
    | nil => simp [weave]
    | cons b t =>
      have h1 := List.pairwise_cons.mp hl
      have hab : a < b := h1.1 b (by simp)
      have hlow : ∀ x ∈ weave f (b :: t), f a b < x := by
        refine weave_lower f hf (b :: t) h1.2 _ fun x hx => ?_
        rcases List.mem_cons.mp hx with rfl | hx
        · exact (hf a _ hab).2
        · exact (hf a b hab).2.trans ((List.pairwise_cons.mp h1.2).1 x hx)
      simp only [weave]
      refine List.pairwise_cons.mpr ⟨fun x hx => ?_, List.pairwise_cons.mpr ⟨hlow, ih h1.2⟩⟩
      rcases List.mem_cons.mp hx with rfl | hx
      · exact (hf a b hab).1
      · exact (hf a b hab).1.trans (hlow x hx)

theorem weave_get (f : K → K → K) (l : List K) (hl : l ≠ []) :
    (weave f l).length = 2 * l.length - 1 ∧ (∀ k < l.length, (weave f l).getD (2 * k) 0 = l.getD k 0) ∧
    ∀ k, k + 1 < l.length → (weave f l).getD (2 * k + 1) 0 = f (l.getD k 0) (l.getD (k + 1) 0) := by
  induction l with
  | nil => exact absurd rfl hl
  | cons a t ih =>
    cases t with
    | nil =>
      refine ⟨rfl, fun k hk => ?_, fun k hk => ?_⟩
      · have : k = 0 := by simpa using hk
        subst this; rfl
      · simp at hk
    | cons b t =>
      obtain ⟨h1, h2, h3⟩ := ih (by simp)
      refine ⟨?_, fun k hk => ?_, fun k hk => ?_⟩
      · simp only [weave, List.length_cons] at h1 ⊢
        omega
      · rcases k with _ | k
        · rfl
        · have := h2 k (by simpa using hk)
          show (weave f (b :: t)).getD (2 * k) 0 = _
          rw [this]; rfl
      · rcases k with _ | k
        · rfl
        · have := h3 k (by simpa using hk)
          show (weave f (b :: t)).getD (2 * k + 1) 0 = _
          rw [this]; rfl

/-- C47: for strictly increasing edges and `0 < gamma < 1`, `gamma_time_steps` without the half step has
`2 n - 1` strictly increasing entries: the original edges at the even positions and
`t_k + gamma (t_{k+1} - t_k)` between them.  With the half step (at least two edges) only entry 1 changes;
it becomes the midpoint of the first two edges and the grid stays strictly increasing. -/
theorem C47_interleaves (edges : List K) (gamma : K) (hn : edges ≠ []) (hs : edges.Pairwise (· < ·))
    (h0 : 0 < gamma) (h1 : gamma < 1) :
    ∃ l, gammaTimeSteps edges gamma false = .ok l ∧ l.length = 2 * edges.length - 1 ∧
      l.Pairwise (· < ·) ∧ (∀ k < edges.length, l.getD (2 * k) 0 = edges.getD k 0) ∧
      (∀ k, k + 1 < edges.length → l.getD (2 * k + 1) 0
        = edges.getD k 0 + gamma * (edges.getD (k + 1) 0 - edges.getD k 0)) ∧
      (2 ≤ edges.length → ∃ l', gammaTimeSteps edges gamma true = .ok l' ∧ l'.length = l.length ∧
        l'.getD 1 0 = (edges.getD 0 0 + edges.getD 1 0) / 2 ∧ (∀ j, j ≠ 1 → l'.getD j 0 = l.getD j 0) ∧
        l'.Pairwise (· < ·)) := by
  set f : K → K → K := fun a b => a + (b - a) * gamma with hf
  have hhalf : (if gamma = 1 / 2 then List.zipWith (fun a b => 1 / 2 * (b + a)) edges edges.tail
    else List.zipWith (fun a b => a + (b - a) * gamma) edges edges.tail)
      = List.zipWith f edges edges.tail := by
    split_ifs with hg
    · have : (fun a b : K => 1 / 2 * (b + a)) = f := by
        funext a b; rw [hf]; simp only [hg]; ring
      rw [this]
    · rfl
  have hff : ∀ a b : K, a < b → a < f a b ∧ f a b < b := by
    intro a b hab
    rw [hf]
    constructor
    · have := mul_pos (sub_pos.mpr hab) h0
      simp only; linarith
    · have := mul_pos (sub_pos.mpr hab) (sub_pos.mpr h1)
      simp only; linarith
  have hsort : (edges ++ List.zipWith f edges edges.tail).mergeSort (fun a b => decide (a ≤ b))
      = weave f edges := by
    refine List.Perm.eq_of_pairwise (le := fun a b : K => a ≤ b) (fun a b _ _ h1 h2 => le_antisymm h1 h2)
      ?_ ((weave_sorted f hff edges hs).imp le_of_lt)
      ((List.mergeSort_perm _ _).trans (weave_perm f edges))
    have := List.pairwise_mergeSort (le := fun a b : K => decide (a ≤ b))
      (fun a b c h1 h2 => by simp only [decide_eq_true_eq] at *; exact h1.trans h2)
      (fun a b => by simp only [Bool.or_eq_true, decide_eq_true_eq]; exact le_total _ _)
      (edges ++ List.zipWith f edges edges.tail)
    exact this.imp fun h => by simpa using h
  obtain ⟨g1, g2, g3⟩ := weave_get f edges hn
  have hw := weave_sorted f hff edges hs
  refine ⟨weave f edges, ?_, g1, hw, g2, fun k hk => ?_, fun h2 => ?_⟩
  · unfold gammaTimeSteps
    simp only [hhalf, hsort, Bool.false_eq_true, if_false]
  · rw [g3 k hk, hf]; ring
  · match edges, h2, hs, hw with
    | a :: b :: t, _, hs, hw =>
      simp only [weave] at hw
      obtain ⟨c, rest, hc⟩ : ∃ c rest, weave f (b :: t) = c :: rest := by
        cases t with
        | nil => exact ⟨b, [], rfl⟩
        | cons d t => exact ⟨b, _, rfl⟩
      have hcb : c = b := by
        cases t with
        | nil => simp [weave] at hc; exact hc.1.symm
        | cons d t => simp [weave] at hc; exact hc.1.symm
      have hab : a < b := (List.pairwise_cons.mp hs).1 b (by simp)
      refine ⟨a :: (1 / 2 * (a + c)) :: c :: rest, ?_, ?_, ?_, ?_, ?_⟩
      · unfold gammaTimeSteps
        simp only [hhalf, hsort, if_true]
        simp only [weave, hc]
      · simp [weave, hc]
      · simp [hcb]; ring
      · intro j hj
        rcases j with _ | _ | j
        · rfl
        · exact absurd rfl hj
        · simp only [weave, hc]; rfl
      · rw [hc] at hw
        have h3 := List.pairwise_cons.mp hw
        have h4 := List.pairwise_cons.mp h3.2
        have h5 := List.pairwise_cons.mp h4.2
        have hac : a < c := by rw [hcb]; exact hab
        refine List.pairwise_cons.mpr ⟨fun x hx => ?_, List.pairwise_cons.mpr ⟨fun x hx => ?_, h4.2⟩⟩
        · rcases List.mem_cons.mp hx with rfl | hx
          · linarith
          · exact h3.1 x (by simp only [List.mem_cons] at hx ⊢; right; exact hx)
        · rcases List.mem_cons.mp hx with rfl | hx
          · linarith
          · have := h5.1 x hx; linarith

example : ([0, 1, 3] : List ℚ).Pairwise (· < ·) := by decide +kernel

/-! ## C49: materials -/

/-- C49: a name that is not in the table is rejected with AssertionError before anything is read for it,
whatever the loader. -/
theorem C49_unknown_rejected (load : List Char → Except PyErr (Xs K)) (parse : List Char → Option K)
    (c : HydrideConst K) (name : List Char) (rest : List (List Char))
    (h : (splitPercent name).headD [] ∉ knownNames) :
    materialsWith load parse c (name :: rest) = .error .assertion := by
  unfold materialsWith
  rw [if_neg h]

/-- C49 (what the code would compute if the data files could be read): for `0 <= e <= 1` every mixed cross
section lies between those of the two isotopes and equals them at the ends; for any loader, `materials`
applies this mixture to the uranium and plutonium names. -/
theorem C49_mixture_partial (e : K) (h0 : 0 ≤ e) (h1 : e ≤ 1) (a b : Xs K) :
    (∀ g, min (a.total g) (b.total g) ≤ (mixXs e a b).total g ∧
      (mixXs e a b).total g ≤ max (a.total g) (b.total g)) ∧
    (∀ g k, min (a.scatter g k) (b.scatter g k) ≤ (mixXs e a b).scatter g k ∧
      (mixXs e a b).scatter g k ≤ max (a.scatter g k) (b.scatter g k)) ∧
    (∀ g k, min (a.fission g k) (b.fission g k) ≤ (mixXs e a b).fission g k ∧
      (mixXs e a b).fission g k ≤ max (a.fission g k) (b.fission g k)) ∧
    mixXs 1 a b = a ∧ mixXs 0 a b = b := by
  have key : ∀ x y : K, min x y ≤ x * e + y * (1 - e) ∧ x * e + y * (1 - e) ≤ max x y := by
    intro x y
    have h2 : 0 ≤ 1 - e := by linarith
    constructor
    · have := mul_le_mul_of_nonneg_right (min_le_left x y) h0
      have := mul_le_mul_of_nonneg_right (min_le_right x y) h2
      nlinarith
    · have := mul_le_mul_of_nonneg_right (le_max_left x y) h0
      have := mul_le_mul_of_nonneg_right (le_max_right x y) h2
      nlinarith
  refine ⟨fun g => key _ _, fun g k => key _ _, fun g k => key _ _, ?_, ?_⟩
  · simp [mixXs]
  · simp [mixXs]

theorem splitPercent_base (base rest : List Char) (hb : '-' ∉ base) :
    splitPercent (base ++ '-' :: '%' :: rest) = base :: splitPercent rest := by
  induction base with
  | nil => rw [List.nil_append, splitPercent]
  | cons y t ih =>
    simp only [List.mem_cons, not_or] at hb
    rw [List.cons_append, splitPercent, ih hb.2]
    intro r h
    exact absurd h.symm hb.1

theorem C49_names_partial (load : List Char → Except PyErr (Xs K)) (parse : List Char → Option K)
    (c : HydrideConst K) (x : K) (text : List Char) (a b : Xs K)
    (htext : '%' ∉ text) (hdash : '-' ∉ text) (hp : parse text = some x) :
    (load "uranium-235".toList = .ok a → load "uranium-238".toList = .ok b →
      materialsWith load parse c ["uranium".toList ++ "-%".toList ++ text ++ "%".toList]
        = .ok [mixXs (x / 100) a b]) ∧
    (load "plutonium-239".toList = .ok a → load "plutonium-240".toList = .ok b →
      materialsWith load parse c ["plutonium".toList ++ "-%".toList ++ text ++ "%".toList]
        = .ok [mixXs (x / 100) a b]) := by
  have htail : splitPercent (text ++ ['%']) = [text ++ ['%']] := by
    clear hp
    induction text with
    | nil => rfl
    | cons y t ih =>
      simp only [List.mem_cons, not_or] at htext hdash
      have h2 := ih htext.2 hdash.2
      rw [List.cons_append, splitPercent, h2]
      intro rest h
      exact absurd h.symm hdash.1
  have hstrip : stripPercent (text ++ ['%']) = text := by
    have hd : ∀ l : List Char, '%' ∉ l → l.dropWhile (· = '%') = l := by
      intro l hl
      cases l with
      | nil => rfl
      | cons y t =>
        have : ¬ y = '%' := fun h => hl (by simp [h])
        simp [List.dropWhile_cons, this]
    unfold stripPercent
    cases text with
    | nil => rfl
    | cons y t =>
      have hy : ¬ y = '%' := fun h => htext (by simp [h])
      rw [List.cons_append, List.dropWhile_cons_of_neg (by simpa using hy), ← List.cons_append,
        List.reverse_append, List.reverse_cons (a := '%'), List.reverse_nil, List.nil_append,
        List.singleton_append, List.dropWhile_cons_of_pos (by simp),
        hd _ (by rw [List.mem_reverse]; exact htext), List.reverse_reverse]
  constructor
  · intro ha hb
    have hsp : splitPercent ("uranium".toList ++ "-%".toList ++ text ++ "%".toList)
        = ["uranium".toList, text ++ ['%']] := by
      have := splitPercent_base "uranium".toList (text ++ ['%']) (by decide)
      rw [htail] at this
      rw [← this]
      simp
    have hmem : '%' ∈ "uranium".toList ++ "-%".toList ++ text ++ "%".toList := by simp
    unfold materialsWith
    rw [if_pos (by rw [hsp]; simp [knownNames, enrichmentNames])]
    unfold generateCrossSection
    simp only [hmem, if_true, hsp, hstrip, hp]
    rw [if_neg (by decide), if_neg (by decide)]
    simp only [if_true, ha, hb, materialsWith]
  · intro ha hb
    have hsp : splitPercent ("plutonium".toList ++ "-%".toList ++ text ++ "%".toList)
        = ["plutonium".toList, text ++ ['%']] := by
      have := splitPercent_base "plutonium".toList (text ++ ['%']) (by decide)
      rw [htail] at this
      rw [← this]
      simp
    have hmem : '%' ∈ "plutonium".toList ++ "-%".toList ++ text ++ "%".toList := by simp
    unfold materialsWith
    rw [if_pos (by rw [hsp]; simp [knownNames, enrichmentNames])]
    unfold generateCrossSection
    simp only [hmem, if_true, hsp, hstrip, hp]
    rw [if_neg (by decide), if_neg (by decide), if_neg (by decide)]
    simp only [if_true, ha, hb, materialsWith]

/-- C49 (violation): as written, `materials` returns only for lists of vacuum entries; every other
recognised material raises (TypeError from adding a string to a path). -/
theorem C49_violation_never_loads (parse : List Char → Option K) (c : HydrideConst K)
    (names : List (List Char)) (r : List (Xs K)) (h : materials parse c names = .ok r) :
    ∀ name ∈ names, (splitPercent name).headD [] = "vacuum".toList ∨ name = "vacuum".toList := by
  unfold materials at h
  induction names generalizing r with
  | nil => intro name hn; simp at hn
  | cons name rest ih =>
    unfold materialsWith at h
    split at h
    · next hk =>
      cases hg : generateCrossSection loadAsWritten parse c name with
      | error e => rw [hg] at h; cases h
      | ok x =>
        rw [hg] at h
        simp only at h
        cases hr : materialsWith loadAsWritten parse c rest with
        | error e => rw [hr] at h; cases h
        | ok xs =>
          intro n hn
          rcases List.mem_cons.mp hn with rfl | hn
          · unfold generateCrossSection at hg
            simp only [loadAsWritten] at hg
            by_cases hp : '%' ∈ n
            · left
              simp only [hp, if_true] at hg
              cases hs : splitPercent n with
              | nil => rw [hs] at hg; simp at hg
              | cons m t =>
                cases t with
                | nil => rw [hs] at hg; simp at hg
                | cons e' t =>
                  cases t with
                  | cons _ _ => rw [hs] at hg; simp at hg
                  | nil =>
                    rw [hs] at hg
                    simp only at hg
                    cases hx : parse (stripPercent e') with
                    | none => rw [hx] at hg; simp at hg
                    | some v =>
                      rw [hx] at hg
                      simp only at hg
                      split at hg
                      · next h1 => simpa using h1
                      · split at hg
                        · cases hg
                        · split at hg
                          · cases hg
                          · split at hg
                            · cases hg
                            · split at hg
                              · cases hg
                              · cases hg
            · right
              simp only [hp, if_false] at hg
              split at hg
              · next h1 => exact h1
              · split at hg
                · cases hg
                · split at hg
                  · cases hg
                  · split at hg
                    · cases hg
                    · split at hg
                      · cases hg
                      · cases hg
          · exact ih xs hr n hn
    · cases h

/-- C49 (violation): the documented way of giving an enrichment, `name-X%`, is always rejected. -/
theorem C49_violation_documented_suffix (load : List Char → Except PyErr (Xs K))
    (parse : List Char → Option K) (c : HydrideConst K) (base text : List Char) (last : Char)
    (hb : '%' ∉ base) (ht : '%' ∉ text) (hl : last ≠ '-') (hl2 : last ≠ '%') (rest : List (List Char)) :
    materialsWith load parse c ((base ++ "-".toList ++ text ++ [last] ++ "%".toList) :: rest)
      = .error .assertion := by
  have key : ∀ s : List Char, '%' ∉ s → splitPercent (s ++ [last, '%']) = [s ++ [last, '%']] := by
    intro s hs
    induction s with
    | nil =>
      rw [List.nil_append, splitPercent, splitPercent]
      · rfl
      · intro rest h; simp at h
      · intro rest h; exact absurd h hl
    | cons y t ih =>
      simp only [List.mem_cons, not_or] at hs
      have h2 := ih hs.2
      rw [List.cons_append, splitPercent, h2]
      intro rest h h3
      cases t with
      | nil => simp at h3; exact absurd h3.1 hl2
      | cons z t =>
        rw [List.cons_append] at h3
        exact absurd (List.cons.inj h3).1.symm (fun hz => hs.2 (by rw [List.mem_cons]; exact Or.inl hz))
  apply C49_unknown_rejected
  have hname : base ++ "-".toList ++ text ++ [last] ++ "%".toList = (base ++ "-".toList ++ text) ++ [last, '%'] := by
    simp
  rw [hname, key _ (by simp [hb, ht])]
  intro hmem
  have hno : ∀ m ∈ knownNames, '%' ∉ m := by decide
  exact hno _ hmem (by simp)

example : materialsWith (K := ℚ) (fun _ => .ok ⟨fun _ => 1, fun _ _ => 0, fun _ _ => 0⟩) (fun _ => some 5)
    ⟨1, 1, 1, 1, 1, 1⟩ ["uranium-5%".toList] = .error .assertion := by
  have := C49_violation_documented_suffix (K := ℚ) (fun _ => .ok ⟨fun _ => 1, fun _ _ => 0, fun _ _ => 0⟩)
    (fun _ => some 5) ⟨1, 1, 1, 1, 1, 1⟩ "uranium".toList [] '5' (by decide) (by decide) (by decide)
    (by decide) []
  exact this

/-! ## C50: monoenergetic boundary sources -/

/-- C50: the source is placed in group `k` where `k` is the edge nearest to the source energy, with unit
strength at the chosen face and zero elsewhere, unless the last edge is the nearest. -/
theorem C50_source_group_partial (n : ℕ) (hn : 2 ≤ n) (e : ℕ → K) (energy : K) (k : ℕ)
    (hk : IsNearest n e energy k) (hlast : k ≠ n - 1) (location : ℕ) (hloc : location < 2) :
    ∃ b : Arr3 K, monoBoundary n e energy location = .ok b ∧ b.angles = 1 ∧ b.groups = n - 1 ∧
      ∀ side < 2, ∀ a, ∀ g < n - 1,
        b.val side a g = if side = location ∧ g = k then 1 else 0 := by
  have hk' := nearest_unique (argminAbs_nearest n (by omega) e energy) hk
  have := hk.1
  unfold monoBoundary
  simp only [hk']
  rw [if_neg (by omega), if_neg (by omega)]
  refine ⟨_, rfl, rfl, rfl, fun side hside a g hg => ?_⟩
  simp only [Int.natCast_nonneg, not_lt.mpr, if_false, Nat.cast_inj]

/-- C50 (the group contains the energy or touches the group that does): with increasing edges and the
source energy inside the grid, the energy lies in the chosen group or in the one just below it. -/
theorem C50_adjacent (n : ℕ) (e : ℕ → K) (he : ∀ i j, i < j → j < n → e i < e j) (energy : K) (k : ℕ)
    (hk : IsNearest n e energy k) (hlo : e 0 ≤ energy) (hhi : energy ≤ e (n - 1)) (hlast : k + 1 < n) :
    (e k ≤ energy ∧ energy < e (k + 1)) ∨ (0 < k ∧ e (k - 1) < energy ∧ energy < e k) := by
  rcases le_or_gt (e k) energy with h | h
  · left
    refine ⟨h, ?_⟩
    by_contra hge
    push Not at hge
    have h1 := hk.2.1 (k + 1) hlast
    have h2 := he k (k + 1) (by omega) hlast
    rw [abs_of_nonneg (by linarith), abs_of_nonneg (by linarith)] at h1
    linarith
  · right
    have hk0 : 0 < k := by
      rcases Nat.eq_zero_or_pos k with h0 | h0
      · subst h0; exact absurd hlo (not_le.mpr h)
      · exact h0
    refine ⟨hk0, ?_, h⟩
    by_contra hge
    push Not at hge
    have h1 := hk.2.2 (k - 1) (by omega)
    have h2 := he (k - 1) k (by omega) (by omega)
    rw [abs_of_nonpos (by linarith), abs_of_nonpos (by linarith)] at h1
    linarith

/-- C50 (violation): whenever the last edge is the nearest one - for example for every grid that ends
below the source energy - the call raises IndexError. -/
theorem C50_violation (n : ℕ) (hn : 1 ≤ n) (e : ℕ → K) (energy : K) (location : ℤ)
    (h : IsNearest n e energy (n - 1)) : monoBoundary n e energy location = .error .indexError := by
  have hk' := nearest_unique (argminAbs_nearest n (by omega) e energy) h
  unfold monoBoundary
  simp only [hk', le_refl, if_true]
  split_ifs <;> rfl

theorem C50_violation_grid_below (n : ℕ) (hn : 1 ≤ n) (e : ℕ → K) (he : ∀ i j, i < j → j < n → e i < e j)
    (energy : K) (hb : e (n - 1) ≤ energy) (location : ℤ) :
    monoBoundary n e energy location = .error .indexError := by
  refine C50_violation n hn e energy location ⟨by omega, fun j hj => ?_, fun j hj => ?_⟩
  · rcases Nat.lt_or_ge j (n - 1) with h | h
    · have := he j (n - 1) h (by omega)
      rw [abs_of_nonneg (by linarith), abs_of_nonneg (by linarith)]; linarith
    · have : j = n - 1 := by omega
      rw [this]
  · have := he j (n - 1) hj (by omega)
    rw [abs_of_nonneg (by linarith), abs_of_nonneg (by linarith)]; linarith

/-- A grid of three groups up to 20 MeV: the D-T energy lies in the last group but the upper edge is the
nearest. -/
example : IsNearest 4 (fun i => if i = 0 then (0 : ℚ) else if i = 1 then 1000000 else if i = 2 then 5000000
    else 20000000) 14100000 3 := by
  refine ⟨by norm_num, fun j hj => ?_, fun j hj => ?_⟩
  · interval_cases j <;> norm_num [abs_le, abs_of_pos, abs_of_neg]
  · interval_cases j <;> norm_num [abs_of_pos, abs_of_neg]

/-! ## C51, C79: time dependence of boundaries -/

/-- C51: `time_dependence_decay_01` has one entry per step; step `t` (ending at `edges[t+1]`) is the given
boundary if it ends at or before the shut-off time and zero otherwise.  `time_dependence_constant` has a
time axis of length one, which every time integrator reads at each step. -/
theorem C51_shutoff (b : ℕ → ℕ → ℕ → K) (n : ℕ) (edgesT : ℕ → K) (off : K) :
    (timeDecay01 b n edgesT off).steps = n - 1 ∧
    (∀ t, edgesT (t + 1) ≤ off → (timeDecay01 b n edgesT off).val t = b) ∧
    (∀ t, off < edgesT (t + 1) → (timeDecay01 b n edgesT off).val t = fun _ _ _ => 0) ∧
    (timeConstant b).steps = 1 ∧ ∀ t, (timeConstant b).val (if (timeConstant b).steps = 1 then 0 else t) = b := by
  refine ⟨rfl, fun t ht => ?_, fun t ht => ?_, rfl, fun t => rfl⟩
  · funext s a g; simp [timeDecay01, not_lt.mpr ht]
  · funext s a g; simp [timeDecay01, ht]

/-- C51: with increasing times the boundary is switched off once and stays off. -/
theorem C51_stays_off (b : ℕ → ℕ → ℕ → K) (n : ℕ) (edgesT : ℕ → K) (off : K)
    (hmono : ∀ i j, i ≤ j → edgesT i ≤ edgesT j) (t : ℕ)
    (h : off < edgesT (t + 1)) : ∀ u, t ≤ u → (timeDecay01 b n edgesT off).val u = fun _ _ _ => 0 :=
  fun u hu => (C51_shutoff b n edgesT off).2.2.1 u (lt_of_lt_of_le h (hmono _ _ (by omega)))

end Discrete1.Props
