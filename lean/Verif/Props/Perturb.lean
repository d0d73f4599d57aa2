import Verif.Props.RoundedTime
import Verif.Props.EnergyTime

/-!
# C215, C216: how uncertain data and rounding move the solution
-/

set_option linter.unusedSectionVars false
set_option linter.unusedSimpArgs false

namespace Discrete1.Props

open Finset Discrete1.Spec Discrete1.Slab Discrete1.Tools Discrete1.MultiGroup Discrete1.Drivers

variable {K : Type} [Field K] [LinearOrder K] [IsStrictOrderedRing K]

/-! ## One cell, one direction, one sweep -/

/-- The diamond step with perturbed data. -/
theorem cell_near {th c s E d : K} (hc : 1 ≤ c) (hth0 : 0 ≤ th) (hth1 : th * c ^ 2 < 1)
    (hs : s = c * (1 - th) / (1 - th * c ^ 2)) {m m' sg sg' q q' e e' : K} (hm : 0 < m) (hsg : 0 ≤ sg)
    (hfine : 1 / 2 * sg ≤ th * m) (nm : WithinFactor c m m') (nsg : WithinFactor c sg sg')
    (hd : 1 ≤ d) (hdE : d ≤ E) (nq : WithinFactor d q q') (ne : WithinFactor E e e') :
    WithinFactor (E * (s * c)) ((q + e * (m - 1 / 2 * sg)) / (m + 1 / 2 * sg))
      ((q' + e' * (m' - 1 / 2 * sg')) / (m' + 1 / 2 * sg')) := by
  have hc0 : 0 < c := by linarith
  have hs1 : 1 ≤ s := by rw [hs]; exact one_le_subFactor hc hth0 hth1
  have hs0 : 0 < s := by linarith
  have hE0 : 0 < E := by linarith
  have hd0 : 0 < d := by linarith
  have nb : WithinFactor c (1 / 2 * sg) (1 / 2 * sg') := by
    have := (WithinFactor.refl (c := (1 : K)) le_rfl (by norm_num : (0 : K) ≤ 1 / 2)).mul one_pos hc0 nsg
    rwa [one_mul] at this
  have nsub := WithinFactor.sub hc hth0 hth1 hfine nm nb
  rw [← hs] at nsub
  have nnum := (nq.mono hd0 (show d ≤ E * s by nlinarith)).add (ne.mul hE0 hs0 nsub)
  have nden := nm.add nb
  have h := nnum.div (by positivity) hc0 (by linarith) nden
  rw [mul_assoc] at h
  exact h

/-- One direction with perturbed data. -/
theorem direction_near {th c s E d : K} (hc : 1 ≤ c) (hth0 : 0 ≤ th) (hth1 : th * c ^ 2 < 1)
    (hs : s = c * (1 - th) / (1 - th * c ^ 2)) {N : ℕ} {mu : K} {dx dx' sigma sigma' q q' psi psi' : ℕ → K}
    (hmu : mu ≠ 0) (hphys : Physical N dx sigma) (hfine : FineBy th N mu dx sigma)
    (ndx : ∀ i < N, WithinFactor c (dx i) (dx' i)) (nsg : ∀ i < N, WithinFactor c (sigma i) (sigma' i))
    (hd : 1 ≤ d) (hdE : d ≤ E) (nq : ∀ i < N, WithinFactor d (q i) (q' i))
    (h : CellBalance N mu dx sigma q psi) (h' : CellBalance N mu dx' sigma' q' psi')
    (nin : WithinFactor E (inflow N mu psi) (inflow N mu psi')) :
    ∀ i ≤ N, WithinFactor (E * (s * c) ^ N) (psi i) (psi' i) := by
  have hc0 : 0 < c := by linarith
  have hs1 : 1 ≤ s := by rw [hs]; exact one_le_subFactor hc hth0 hth1
  have hsc : 1 ≤ s * c := by nlinarith
  have hE0 : 0 < E := by linarith
  have up : ∀ k ≤ N, E * (s * c) ^ k ≤ E * (s * c) ^ N := fun k hk =>
    mul_le_mul_of_nonneg_left (pow_le_pow_right₀ hsc hk) hE0.le
  have dx'pos : ∀ i < N, 0 < dx' i := fun i hi => by
    have h1 := (ndx i hi).2.2
    have h2 := (hphys i hi).1
    by_contra hn
    have : c * dx' i ≤ 0 := mul_nonpos_of_nonneg_of_nonpos hc0.le (not_lt.mp hn)
    linarith
  have nm : ∀ i < N, WithinFactor c (|mu| / dx i) (|mu| / dx' i) := fun i hi => by
    have := (WithinFactor.refl (c := (1 : K)) le_rfl (abs_nonneg mu)).div one_pos hc0 (hphys i hi).1 (ndx i hi)
    rwa [one_mul] at this
  have mpos : ∀ i < N, 0 < |mu| / dx i := fun i hi => div_pos (abs_pos.mpr hmu) (hphys i hi).1
  have hf : ∀ i < N, 1 / 2 * sigma i ≤ th * (|mu| / dx i) := fun i hi =>
    half_le_of_fineBy (hphys i hi).1 (hfine i hi)
  unfold inflow at nin
  rcases lt_or_gt_of_ne hmu with hneg | hpos
  · rw [if_neg (not_lt.mpr hneg.le), if_neg (not_lt.mpr hneg.le)] at nin
    have key : ∀ k ≤ N, WithinFactor (E * (s * c) ^ k) (psi (N - k)) (psi' (N - k)) := by
      intro k
      induction k with
      | zero => intro _; simpa using nin
      | succ k ih =>
        intro hk
        have hi : N - (k + 1) < N := by omega
        have hprev := ih (by omega)
        have e1 := (bwd_cell_iff (bwd_den_pos hneg (hphys _ hi).1 (hphys _ hi).2).ne').mpr (h _ hi)
        have e2 := (bwd_cell_iff (bwd_den_pos hneg (dx'pos _ hi) (nsg _ hi).1).ne').mpr (h' _ hi)
        have h1 : 1 ≤ (s * c) ^ k := one_le_pow₀ hsc
        have := cell_near hc hth0 hth1 hs (mpos _ hi) (hphys _ hi).2 (hf _ hi) (nm _ hi) (nsg _ hi) hd
          (show d ≤ E * (s * c) ^ k by nlinarith) (nq _ hi) hprev
        rw [abs_of_neg hneg] at this
        rw [show N - (k + 1) + 1 = N - k by omega] at e1 e2
        rw [e1, e2, pow_succ, ← mul_assoc]
        exact this
    intro i hi
    have := key (N - i) (by omega)
    rw [show N - (N - i) = i by omega] at this
    exact this.mono (by positivity) (up _ (by omega))
  · rw [if_pos hpos, if_pos hpos] at nin
    have key : ∀ i ≤ N, WithinFactor (E * (s * c) ^ i) (psi i) (psi' i) := by
      intro i
      induction i with
      | zero => intro _; simpa using nin
      | succ i ih =>
        intro hi
        have hi' : i < N := by omega
        have e1 := (fwd_cell_iff (fwd_den_pos hpos (hphys _ hi').1 (hphys _ hi').2).ne').mpr (h _ hi')
        have e2 := (fwd_cell_iff (fwd_den_pos hpos (dx'pos _ hi') (nsg _ hi').1).ne').mpr (h' _ hi')
        have h1 : 1 ≤ (s * c) ^ i := one_le_pow₀ hsc
        have := cell_near hc hth0 hth1 hs (mpos _ hi') (hphys _ hi').2 (hf _ hi') (nm _ hi') (nsg _ hi') hd
          (show d ≤ E * (s * c) ^ i by nlinarith) (nq _ hi') (ih (by omega))
        rw [abs_of_pos hpos] at this
        rw [e1, e2, pow_succ, ← mul_assoc]
        exact this
    intro i hi
    exact (key i hi).mono (by positivity) (up _ hi)

/-- One sweep with perturbed data. -/
theorem swept_near {th c s d : K} (hc : 1 ≤ c) (hth0 : 0 ≤ th) (hth1 : th * c ^ 2 < 1)
    (hs : s = c * (1 - th) / (1 - th * c ^ 2)) {N A : ℕ} {mu : ℕ → K} {dx dx' sigma sigma' : ℕ → K}
    {q q' psi psi' : ℕ → ℕ → K} {bcL bcR : Bool} {bL bR bL' bR' : ℕ → K}
    (hne : ∀ n < A, mu n ≠ 0) (hphys : Physical N dx sigma) (hfine : ∀ n < A, FineBy th N (mu n) dx sigma)
    (ndx : ∀ i < N, WithinFactor c (dx i) (dx' i)) (nsg : ∀ i < N, WithinFactor c (sigma i) (sigma' i))
    (hd : 1 ≤ d) (nq : ∀ n < A, ∀ i < N, WithinFactor d (q n i) (q' n i))
    (h : AllBalanced N A mu dx sigma q psi) (h' : AllBalanced N A mu dx' sigma' q' psi')
    (hin : SweptInflow N A mu bcL bcR bL bR psi) (hin' : SweptInflow N A mu bcL bcR bL' bR' psi')
    (nL : ∀ n < A, WithinFactor d (bL n) (bL' n)) (nR : ∀ n < A, WithinFactor d (bR n) (bR' n)) :
    ∀ n < A, ∀ i ≤ N, WithinFactor (d * ((s * c) ^ N) ^ 2) (psi n i) (psi' n i) := by
  have hs1 : 1 ≤ s := by rw [hs]; exact one_le_subFactor hc hth0 hth1
  have hsc : 1 ≤ s * c := by nlinarith
  obtain ⟨P, hP⟩ : ∃ P, P = (s * c) ^ N := ⟨_, rfl⟩
  have hP1 : 1 ≤ P := hP ▸ one_le_pow₀ hsc
  have hd0 : 0 < d := by linarith
  have hdP : d ≤ d * P := le_mul_of_one_le_right hd0.le hP1
  have bnd : ∀ n < A, WithinFactor d (if 0 < mu n then bL n else bR n) (if 0 < mu n then bL' n else bR' n) :=
    fun n hn => by split; exacts [nL n hn, nR n hn]
  -- directions whose mirror image is swept later
  have first : ∀ n < A, ¬ A - 1 - n < n → ∀ i ≤ N, WithinFactor (d * P) (psi n i) (psi' n i) := by
    intro n hn hnot
    have e1 := hin n hn
    have e2 := hin' n hn
    have c1 : ¬ (A - 1 - n < n ∧ leavesReflecting bcL bcR (mu (A - 1 - n))) := fun h => hnot h.1
    rw [if_neg c1, add_zero] at e1 e2
    rw [hP]
    exact direction_near hc hth0 hth1 hs (hne n hn) hphys (hfine n hn) ndx nsg hd le_rfl (nq n hn) (h n hn) (h' n hn)
      (by rw [e1, e2]; exact bnd n hn)
  intro n hn
  rw [← hP]
  have hin1 : WithinFactor (d * P) (inflow N (mu n) (psi n)) (inflow N (mu n) (psi' n)) := by
    rw [hin n hn, hin' n hn]
    refine ((bnd n hn).mono hd0 hdP).add ?_
    split
    · next hcond =>
      have hf := first (A - 1 - n) (by omega) (by omega)
      unfold outflow
      split
      · exact hf N le_rfl
      · exact hf 0 (Nat.zero_le _)
    · exact WithinFactor.refl (hd.trans hdP) le_rfl
  have := direction_near hc hth0 hth1 hs (hne n hn) hphys (hfine n hn) ndx nsg hd hdP (nq n hn) (h n hn) (h' n hn) hin1
  rw [← hP, mul_assoc, ← sq] at this
  exact this

theorem scalarCenter_near {A : ℕ} {w : ℕ → K} {psi psi' : ℕ → ℕ → K} {i : ℕ} {E : K} (hE : 1 ≤ E)
    (hw : ∀ n < A, 0 ≤ w n) (h0 : ∀ n < A, WithinFactor E (psi n i) (psi' n i))
    (h1 : ∀ n < A, WithinFactor E (psi n (i + 1)) (psi' n (i + 1))) :
    WithinFactor E (scalarCenter A w psi i) (scalarCenter A w psi' i) := by
  have hE0 : 0 < E := by linarith
  refine ⟨scalarCenter_nonneg hw (fun n hn => (h0 n hn).1) (fun n hn => (h1 n hn).1), ?_, ?_⟩
  · exact scalarCenter_scaled_le hw (fun n hn => (h0 n hn).2.1) fun n hn => (h1 n hn).2.1
  · exact scalarCenter_scaled_le hw (fun n hn => (h0 n hn).2.2) fun n hn => (h1 n hn).2.2

theorem sum_near {n : ℕ} {f f' : ℕ → K} {c : K} (hc : 1 ≤ c) (h : ∀ i < n, WithinFactor c (f i) (f' i)) :
    WithinFactor c (∑ i ∈ range n, f i) (∑ i ∈ range n, f' i) := by
  induction n with
  | zero => exact WithinFactor.refl hc le_rfl
  | succ n ih =>
    rw [sum_range_succ, sum_range_succ]
    exact (ih fun i hi => h i (by omega)).add (h n (by omega))

/-! ## Down-scatter problems -/

theorem downscatter_near {th c b s d : K} (hc : 1 ≤ c) (hb : 1 ≤ b) (hth0 : 0 ≤ th) (hth1 : th * c ^ 2 < 1)
    (hs : s = c * (1 - th) / (1 - th * c ^ 2)) (hd : 1 ≤ d) (p : Problem K) (dx' : ℕ → K)
    (sigma sigma' : ℕ → ℕ → K) (X X' : ℕ → ℕ → ℕ → K) (ext ext' bnd bnd' : Arr3 K)
    (hok : ∀ g < p.groups, SlabOk p sigma g)
    (hfine : ∀ g < p.groups, ∀ n < p.angles, FineBy th p.cells (p.angleX n) p.dx (fun i => sigma (p.mm i) g))
    (hw : ∀ n < p.angles, 0 ≤ p.angleW n)
    (hdown : ∀ m g g', g ≤ g' → X m g g' = 0) (hdown' : ∀ m g g', g ≤ g' → X' m g g' = 0)
    (ndx : ∀ i < p.cells, WithinFactor c (p.dx i) (dx' i))
    (nsg : ∀ i < p.cells, ∀ g < p.groups, WithinFactor c (sigma (p.mm i) g) (sigma' (p.mm i) g))
    (nX : ∀ i < p.cells, ∀ g < p.groups, ∀ g' < g, WithinFactor b (X (p.mm i) g g') (X' (p.mm i) g g'))
    (next : ∀ i < p.cells, ∀ n < p.angles, ∀ g < p.groups, WithinFactor d (sourceAt ext i n g) (sourceAt ext' i n g))
    (nbnd : ∀ s < 2, ∀ n < p.angles, ∀ g < p.groups, WithinFactor d (sourceAt bnd s n g) (sourceAt bnd' s n g))
    (phi phi' : ℕ → ℕ → K) (psi psi' : ℕ → ℕ → ℕ → K) (hsol : SolvesMultigroup p sigma X ext bnd phi psi)
    (hsol' : SolvesMultigroup { p with dx := dx' } sigma' X' ext' bnd' phi' psi') :
    ∀ g < p.groups,
      (∀ i < p.cells, WithinFactor (d * ((s * c) ^ p.cells) ^ 2 * (b * ((s * c) ^ p.cells) ^ 2) ^ g) (phi i g) (phi' i g)) ∧
      ∀ n < p.angles, ∀ i ≤ p.cells,
        WithinFactor (d * ((s * c) ^ p.cells) ^ 2 * (b * ((s * c) ^ p.cells) ^ 2) ^ g) (psi g n i) (psi' g n i) := by
  have hs1 : 1 ≤ s := by rw [hs]; exact one_le_subFactor hc hth0 hth1
  have hsc : 1 ≤ s * c := by nlinarith
  obtain ⟨Q, hQ⟩ : ∃ Q, Q = ((s * c) ^ p.cells) ^ 2 := ⟨_, rfl⟩
  have hQ1 : 1 ≤ Q := hQ ▸ one_le_pow₀ (one_le_pow₀ hsc)
  have hQ0 : 0 < Q := by linarith
  have hb0 : 0 < b := by linarith
  have hd0 : 0 < d := by linarith
  have hbQ : 1 ≤ b * Q := by nlinarith
  rw [← hQ]
  intro g
  induction g using Nat.strong_induction_on with
  | _ g ih =>
    intro hg
    obtain ⟨D, hD⟩ : ∃ D, D = d * (b * Q) ^ g := ⟨_, rfl⟩
    have hD1 : 1 ≤ D := by rw [hD]; nlinarith [one_le_pow₀ (n := g) hbQ]
    have hdD : d ≤ D := by rw [hD]; exact le_mul_of_one_le_right hd0.le (one_le_pow₀ hbQ)
    have lower : ∀ (Y : ℕ → ℕ → ℕ → K) (f : ℕ → ℕ → K), (∀ m g g', g ≤ g' → Y m g g' = 0) → ∀ i,
        ∑ og ∈ range p.groups, Y (p.mm i) g og * f i og = ∑ og ∈ range g, Y (p.mm i) g og * f i og := by
      intro Y f hY i
      refine (sum_subset (fun og hog => mem_range.mpr (by have := mem_range.mp hog; omega)) fun og _ hog => ?_).symm
      rw [hY _ _ _ (not_lt.mp fun h => hog (mem_range.mpr h)), zero_mul]
    have hsum : ∀ i < p.cells, WithinFactor D (∑ og ∈ range p.groups, X (p.mm i) g og * phi i og)
        (∑ og ∈ range p.groups, X' (p.mm i) g og * phi' i og) := by
      intro i hi
      rw [lower X phi hdown, lower X' phi' hdown']
      refine sum_near hD1 fun og hog => ?_
      refine ((nX i hi g hg og hog).mul hb0 (by positivity) ((ih og hog (by omega)).1 i hi)).mono (by positivity) ?_
      rw [hD, show b * (d * Q * (b * Q) ^ og) = d * (b * Q) ^ (og + 1) by rw [pow_succ]; ring]
      exact mul_le_mul_of_nonneg_left (pow_le_pow_right₀ hbQ hog) hd0.le
    have hq : ∀ n < p.angles, ∀ i < p.cells, WithinFactor D
        (∑ og ∈ range p.groups, X (p.mm i) g og * phi i og + ext.val i (bidx ext.angles n) (bidx ext.groups g))
        (∑ og ∈ range p.groups, X' (p.mm i) g og * phi' i og + ext'.val i (bidx ext'.angles n) (bidx ext'.groups g)) :=
      fun n hn i hi => (hsum i hi).add ((next i hi n hn g hg).mono hd0 hdD)
    have hsw := swept_near hc hth0 hth1 hs (hok g hg).nonzero (hok g hg).phys (hfine g hg) ndx
      (fun i hi => nsg i hi g hg) hD1 hq (hsol.balance g hg) (hsol'.balance g hg) (hsol.inflow g hg) (hsol'.inflow g hg)
      (fun n hn => (nbnd 0 (by omega) n hn g hg).mono hd0 hdD) (fun n hn => (nbnd 1 (by omega) n hn g hg).mono hd0 hdD)
    rw [← hQ] at hsw
    have e : d * Q * (b * Q) ^ g = D * Q := by rw [hD]; ring
    rw [e]
    refine ⟨fun i hi => ?_, hsw⟩
    rw [hsol.scalar g hg i hi, hsol'.scalar g hg i hi]
    exact scalarCenter_near (by nlinarith) hw (fun n hn => hsw n hn i hi.le) fun n hn => hsw n hn (i + 1) hi

/-! ## The size of the factors -/

/-- How many times a relative uncertainty of the data of a group is magnified by one sweep of `N` cells with
`sigma dx ≤ th * 2 |mu|`. -/
def dataCost (th : K) (N : ℕ) : K := 1 + 2 * N * (1 + 2 / (1 - th))

theorem subFactor_bound {th eps c : K} (heps : 0 ≤ eps) (hth0 : 0 ≤ th) (hth1 : th < 1) (h4 : 4 * eps < 1 - th)
    (hc : c = 1 / (1 - eps)) :
    1 ≤ c ∧ th * c ^ 2 < 1 ∧ c * (1 - th) / (1 - th * c ^ 2) * (1 - 2 / (1 - th) * eps) ≤ 1 := by
  have hd : 0 < 1 - th := by linarith
  have hp : 0 < 1 - eps := by linarith
  have hc1 : 1 ≤ c := by rw [hc, le_div_iff₀ hp]; linarith
  have hce : c * (1 - eps) = 1 := by rw [hc]; field_simp
  have hth2 : th * c ^ 2 < 1 := by
    rw [hc, div_pow, one_pow, mul_one_div, div_lt_one (by positivity)]
    nlinarith [mul_nonneg heps heps]
  refine ⟨hc1, hth2, ?_⟩
  rw [div_mul_eq_mul_div, div_le_one (by linarith)]
  have e1 : (1 - th) * (1 - 2 / (1 - th) * eps) = 1 - th - 2 * eps := by field_simp
  have e2 : c * (1 - th) * (1 - 2 / (1 - th) * eps) = c * (1 - th - 2 * eps) := by rw [mul_assoc, e1]
  rw [e2]
  have e3 : c * (1 - th - 2 * eps) * (1 - eps) ^ 2 = (1 - eps) * (1 - th - 2 * eps) := by
    calc c * (1 - th - 2 * eps) * (1 - eps) ^ 2 = (c * (1 - eps)) * ((1 - eps) * (1 - th - 2 * eps)) := by ring
      _ = _ := by rw [hce, one_mul]
  have e4 : (1 - th * c ^ 2) * (1 - eps) ^ 2 = (1 - eps) ^ 2 - th := by
    calc (1 - th * c ^ 2) * (1 - eps) ^ 2 = (1 - eps) ^ 2 - th * (c * (1 - eps)) ^ 2 := by ring
      _ = _ := by rw [hce]; ring
  refine le_of_mul_le_mul_right ?_ (show 0 < (1 - eps) ^ 2 by positivity)
  rw [e3, e4]
  nlinarith [mul_nonneg heps hth0, mul_nonneg heps heps, mul_nonneg heps (by linarith : (0:K) ≤ 1 - th - 2 * eps)]

/-- The factor of one group: `c (s c)^(2 N) (1 - cost eps) ≤ 1`. -/
theorem groupFactor_bound {th eps c : K} {N : ℕ} (hN : 0 < N) (heps : 0 ≤ eps) (hth0 : 0 ≤ th) (hth1 : th < 1)
    (hcost : dataCost th N * eps < 1) (hc : c = 1 / (1 - eps)) :
    1 ≤ c ∧ th * c ^ 2 < 1 ∧ c * (1 - eps) ≤ 1 ∧
    c * ((c * (1 - th) / (1 - th * c ^ 2) * c) ^ N) ^ 2 * (1 - dataCost th N * eps) ≤ 1 := by
  have hd : 0 < 1 - th := by linarith
  have hz : 0 ≤ 2 / (1 - th) := by positivity
  have hN1 : (1 : K) ≤ N := by exact_mod_cast hN
  have h4 : 4 * eps < 1 - th := by
    have k : 2 * (2 / (1 - th)) * eps ≤ dataCost th N * eps := by
      refine mul_le_mul_of_nonneg_right ?_ heps
      unfold dataCost
      nlinarith [mul_nonneg (by linarith : (0 : K) ≤ N - 1) hz]
    have k2 : 2 * (2 / (1 - th)) * eps < 1 := by linarith
    rw [show 2 * (2 / (1 - th)) * eps = 4 * eps / (1 - th) by ring, div_lt_one hd] at k2
    exact k2
  obtain ⟨hc1, hth2, hsb⟩ := subFactor_bound heps hth0 hth1 h4 hc
  have hce : c * (1 - eps) ≤ 1 := by
    have : c * (1 - eps) = 1 := by rw [hc]; field_simp [show (1 - eps) ≠ 0 by linarith]
    exact this.le
  refine ⟨hc1, hth2, hce, ?_⟩
  obtain ⟨s, hs⟩ : ∃ s, s = c * (1 - th) / (1 - th * c ^ 2) := ⟨_, rfl⟩
  rw [← hs] at hsb ⊢
  have hs0 : 0 ≤ s := by rw [hs]; exact zero_le_one.trans (one_le_subFactor hc1 hth0 hth2)
  have hc0 : 0 ≤ c := by linarith
  have b1 := bound_mul hs0 hc0 (mul_nonneg hz heps) heps hsb hce
  have b2 := bound_pow (mul_nonneg hs0 hc0) (by positivity) b1 (N * 2)
  have b3 := bound_mul hc0 (by positivity) heps (by positivity) hce b2
  rw [← pow_mul]
  refine le_trans (le_of_eq ?_) b3
  unfold dataCost
  push_cast
  ring

theorem WithinFactor.trans {a b x y z : K} (ha : 0 < a) (hb : 0 < b) (h : WithinFactor a x y)
    (h' : WithinFactor b y z) : WithinFactor (a * b) x z := by
  refine ⟨h'.1, ?_, ?_⟩
  · calc z ≤ b * y := h'.2.1
      _ ≤ b * (a * x) := mul_le_mul_of_nonneg_left h.2.1 hb.le
      _ = _ := by ring
  · calc x ≤ a * y := h.2.2
      _ ≤ a * (b * z) := mul_le_mul_of_nonneg_left h'.2.2 ha.le
      _ = _ := by ring

theorem factor_pos {c x y : K} (hc : 0 < c) (h : WithinFactor c x y) (hx : 0 < x) : 0 < y := by
  by_contra hn
  have : c * y ≤ 0 := mul_nonpos_of_nonneg_of_nonpos hc.le (not_lt.mp hn)
  linarith [h.2.2]

/-! ## C215 -/

/-- C215: on a down-scatter problem, data (cell widths, total and scattering cross sections, sources, boundary
values) known up to the factor `1/(1 - eps)` determine the flux of group `g` that `source_iteration` returns up to the
factor `1/(1 - (g + 1) D eps)`, `D = 1 + 2 N (1 + 2/(1 - th))`, in every cell, from any two initial guesses. -/
theorem C215_relative_conditioning {th eps : K} (heps : 0 ≤ eps) (hth0 : 0 ≤ th) (hth1 : th < 1) (p : Problem K)
    (hN : 0 < p.cells) (dx' : ℕ → K) (xsTotal xsTotal' : ℕ → ℕ → K) (xs xs' : ℕ → ℕ → ℕ → K)
    (ext ext' bnd bnd' : Arr3 K) (guess guess' : ℕ → ℕ → K)
    (hok : ∀ g < p.groups, SlabOk p xsTotal g)
    (hfine : ∀ g < p.groups, ∀ n < p.angles, ∀ i < p.cells, xsTotal (p.mm i) g * p.dx i ≤ th * (2 * |p.angleX n|))
    (hw : ∀ n < p.angles, 0 ≤ p.angleW n)
    (hdown : ∀ m g g', g ≤ g' → xs m g g' = 0 ∧ xs' m g g' = 0)
    (ndx : ∀ i < p.cells, WithinFactor (1 / (1 - eps)) (p.dx i) (dx' i))
    (nT : ∀ i < p.cells, ∀ g < p.groups, WithinFactor (1 / (1 - eps)) (xsTotal (p.mm i) g) (xsTotal' (p.mm i) g))
    (nS : ∀ i < p.cells, ∀ g < p.groups, ∀ g' < g, WithinFactor (1 / (1 - eps)) (xs (p.mm i) g g') (xs' (p.mm i) g g'))
    (next : ∀ i < p.cells, ∀ n < p.angles, ∀ g < p.groups,
      WithinFactor (1 / (1 - eps)) (sourceAt ext i n g) (sourceAt ext' i n g))
    (nbnd : ∀ s < 2, ∀ n < p.angles, ∀ g < p.groups,
      WithinFactor (1 / (1 - eps)) (sourceAt bnd s n g) (sourceAt bnd' s n g)) :
    dataCost th p.cells * eps < 1 →
    ∃ phi phi', sourceIteration p xsTotal (.iso xs) ext bnd guess = .ok phi ∧
      sourceIteration { p with dx := dx' } xsTotal' (.iso xs') ext' bnd' guess' = .ok phi' ∧
      ∀ g < p.groups, ((g : K) + 1) * dataCost th p.cells * eps < 1 → ∀ i < p.cells,
        WithinFactor (1 / (1 - ((g : K) + 1) * dataCost th p.cells * eps)) (phi i g) (phi' i g) := by
  intro hcost
  obtain ⟨c, hc⟩ : ∃ c, c = 1 / (1 - eps) := ⟨_, rfl⟩
  obtain ⟨hc1, hth2, -, hF⟩ := groupFactor_bound hN heps hth0 hth1 hcost hc
  have hc0 : 0 < c := by linarith
  rw [← hc] at ndx nT nS next nbnd
  obtain ⟨phi, psi, h1, h2⟩ := C22_downscatter_exact p xsTotal xs ext bnd guess hok fun m g g' h => (hdown m g g' h).1
  have hok' : ∀ g < ({ p with dx := dx' } : Problem K).groups, SlabOk { p with dx := dx' } xsTotal' g := fun g hg =>
    ⟨(hok g hg).slab, (hok g hg).nonzero, fun i hi =>
      ⟨factor_pos hc0 (ndx i hi) ((hok g hg).phys i hi).1, (nT i hi g hg).1⟩⟩
  obtain ⟨phi', psi', h1', h2'⟩ := C22_downscatter_exact { p with dx := dx' } xsTotal' xs' ext' bnd' guess' hok'
    fun m g g' h => (hdown m g g' h).2
  refine ⟨phi, phi', h1, h1', fun g hg hg1 i hi => ?_⟩
  obtain ⟨s, hs⟩ : ∃ s, s = c * (1 - th) / (1 - th * c ^ 2) := ⟨_, rfl⟩
  have hs1 : 1 ≤ s := by rw [hs]; exact one_le_subFactor hc1 hth0 hth2
  have key := (downscatter_near hc1 hc1 hth0 hth2 hs hc1 p dx' xsTotal xsTotal' xs xs' ext ext' bnd bnd' hok
    hfine hw (fun m g g' h => (hdown m g g' h).1) (fun m g g' h => (hdown m g g' h).2) ndx nT nS next nbnd phi phi'
    psi psi' h2 h2' g hg).1 i hi
  rw [← hs] at hF
  rw [← pow_succ'] at key
  have hs0 : 0 < s := by linarith
  refine key.mono (by positivity) ?_
  have hD : 0 ≤ dataCost th p.cells := by
    unfold dataCost
    have : (0 : K) < 1 - th := by linarith
    positivity
  have b := bound_pow (by positivity) (mul_nonneg hD heps) hF (g + 1)
  push_cast at b
  rw [← mul_assoc] at b
  rw [le_div_iff₀ (by linarith)]
  exact b

/-! ## C216: time stepping -/

/-- Two sequences of implicit steps with data that agree up to the factor `c`. -/
theorem steps_near {th c s : K} (hc : 1 ≤ c) (hth0 : 0 ≤ th) (hth1 : th * c ^ 2 < 1)
    (hs : s = c * (1 - th) / (1 - th * c ^ 2)) (p : Problem K) (dx' : ℕ → K)
    (sigma sigma' : ℕ → ℕ → K) (X X' : ℕ → ℕ → ℕ → K) (rate rate' : ℕ → K) (ext ext' bnd bnd' : ℕ → Arr3 K) (steps : ℕ)
    (hok : ∀ g < p.groups, SlabOk p sigma g)
    (hfine : ∀ g < p.groups, ∀ n < p.angles, FineBy th p.cells (p.angleX n) p.dx (fun i => sigma (p.mm i) g))
    (hw : ∀ n < p.angles, 0 ≤ p.angleW n)
    (hdown : ∀ m g g', g ≤ g' → X m g g' = 0) (hdown' : ∀ m g g', g ≤ g' → X' m g g' = 0)
    (ndx : ∀ i < p.cells, WithinFactor c (p.dx i) (dx' i))
    (nsg : ∀ i < p.cells, ∀ g < p.groups, WithinFactor c (sigma (p.mm i) g) (sigma' (p.mm i) g))
    (nX : ∀ i < p.cells, ∀ g < p.groups, ∀ g' < g, WithinFactor c (X (p.mm i) g g') (X' (p.mm i) g g'))
    (nrate : ∀ g < p.groups, WithinFactor c (rate g) (rate' g))
    (next : ∀ j < steps, ∀ i < p.cells, ∀ n < p.angles, ∀ g < p.groups,
      WithinFactor c (sourceAt (ext j) i n g) (sourceAt (ext' j) i n g))
    (nbnd : ∀ j < steps, ∀ s < 2, ∀ n < p.angles, ∀ g < p.groups,
      WithinFactor c (sourceAt (bnd j) s n g) (sourceAt (bnd' j) s n g))
    (ref ref' : ℕ → ℕ → ℕ → ℕ → K)
    (h0 : ∀ i < p.cells, ∀ n < p.angles, ∀ g < p.groups, WithinFactor c (ref 0 i n g) (ref' 0 i n g))
    (h : ∀ j < steps, ImplicitStep p sigma X (quadrature p (ref (j + 1))) (fun i n g => -(rate g * ref j i n g))
      (ext j) (bnd j) (ref (j + 1)))
    (h' : ∀ j < steps, ImplicitStep { p with dx := dx' } sigma' X' (quadrature p (ref' (j + 1)))
      (fun i n g => -(rate' g * ref' j i n g)) (ext' j) (bnd' j) (ref' (j + 1))) :
    ∀ j ≤ steps, ∀ i < p.cells, ∀ n < p.angles, ∀ g < p.groups,
      WithinFactor (c * ((c * ((s * c) ^ p.cells) ^ 2) ^ p.groups) ^ j) (ref j i n g) (ref' j i n g) := by
  have hc0 : 0 < c := by linarith
  have hs1 : 1 ≤ s := by rw [hs]; exact one_le_subFactor hc hth0 hth1
  have hsc : 1 ≤ s * c := by nlinarith
  obtain ⟨Q, hQ⟩ : ∃ Q, Q = ((s * c) ^ p.cells) ^ 2 := ⟨_, rfl⟩
  have hQ1 : 1 ≤ Q := hQ ▸ one_le_pow₀ (one_le_pow₀ hsc)
  have hQ0 : 0 < Q := by linarith
  have hcQ : 1 ≤ c * Q := by nlinarith
  rw [← hQ]
  intro j
  induction j with
  | zero => intro _ i hi n hn g hg; rw [pow_zero, mul_one]; exact h0 i hi n hn g hg
  | succ j ih =>
    intro hj i hi n hn g hg
    have hj' : j < steps := by omega
    have ih := ih (by omega)
    obtain ⟨F, hF⟩ : ∃ F, F = c * ((c * Q) ^ p.groups) ^ j := ⟨_, rfl⟩
    rw [← hF] at ih
    have hFc : c ≤ F := by rw [hF]; exact le_mul_of_one_le_right hc0.le (one_le_pow₀ (one_le_pow₀ hcQ))
    have hF0 : 0 < F := by linarith
    obtain ⟨e, he⟩ := h j hj'
    obtain ⟨e', he'⟩ := h' j hj'
    obtain ⟨q, hq⟩ : ∃ q : ℕ → ℕ → ℕ → K, q = fun i n g => sourceAt (ext j) i n g + rate g * ref j i n g := ⟨_, rfl⟩
    obtain ⟨q', hq'⟩ : ∃ q : ℕ → ℕ → ℕ → K, q = fun i n g => sourceAt (ext' j) i n g + rate' g * ref' j i n g := ⟨_, rfl⟩
    have hsol : SolvesMultigroup p sigma X (fullArr p q) (bnd j) (quadrature p (ref (j + 1))) e :=
      ⟨fun g hg i hi => by
        unfold quadrature scalarCenter
        exact sum_congr rfl fun n hn => by rw [(he g hg).1 n (mem_range.mp hn) i hi],
      fun g hg n hn i hi => by
        have h1 := (he g hg).2.1 n hn i hi
        have h2 : (fullArr p q).val i (bidx (fullArr p q).angles n) (bidx (fullArr p q).groups g) = q i n g :=
          sourceAt_fullArr p q hn hg
        rw [(he g hg).1 n hn i hi] at h1
        beta_reduce
        rw [h2, hq]
        linear_combination h1,
      fun g hg => (he g hg).2.2⟩
    have hsol' : SolvesMultigroup { p with dx := dx' } sigma' X' (fullArr p q') (bnd' j) (quadrature p (ref' (j + 1))) e' :=
      ⟨fun g hg i hi => by
        unfold quadrature scalarCenter
        exact sum_congr rfl fun n hn => by rw [(he' g hg).1 n (mem_range.mp hn) i hi],
      fun g hg n hn i hi => by
        have h1 := (he' g hg).2.1 n hn i hi
        have h2 : (fullArr p q').val i (bidx (fullArr p q').angles n) (bidx (fullArr p q').groups g) = q' i n g :=
          sourceAt_fullArr p q' hn hg
        rw [(he' g hg).1 n hn i hi] at h1
        beta_reduce
        rw [h2, hq']
        linear_combination h1,
      fun g hg => (he' g hg).2.2⟩
    have hcF : c ≤ c * F := le_mul_of_one_le_right hc0.le (hc.trans hFc)
    have nq : ∀ i < p.cells, ∀ n < p.angles, ∀ g < p.groups,
        WithinFactor (c * F) (sourceAt (fullArr p q) i n g) (sourceAt (fullArr p q') i n g) := fun i hi n hn g hg => by
      have e1 : sourceAt (fullArr p q) i n g = q i n g := sourceAt_fullArr p q hn hg
      have e2 : sourceAt (fullArr p q') i n g = q' i n g := sourceAt_fullArr p q' hn hg
      rw [e1, e2, hq, hq']
      exact ((next j hj' i hi n hn g hg).mono hc0 hcF).add ((nrate g hg).mul hc0 hF0 (ih i hi n hn g hg))
    have key := (downscatter_near hc hc hth0 hth1 hs (hc.trans hcF) p dx' sigma sigma' X X' (fullArr p q) (fullArr p q')
      (bnd j) (bnd' j) hok hfine hw hdown hdown' ndx nsg nX nq
      (fun s hs n hn g hg => (nbnd j hj' s hs n hn g hg).mono hc0 hcF) _ _ e e' hsol hsol' g hg).2 n hn
    rw [← hQ] at key
    have half := (key i hi.le).add (key (i + 1) hi)
    have half2 := half.mul (by positivity) one_pos (WithinFactor.refl (c := 1) le_rfl (by norm_num : (0 : K) ≤ 1 / 2))
    rw [(he g hg).1 n hn i hi, (he' g hg).1 n hn i hi, div_eq_mul_one_div (e g n i + e g n (i + 1)),
      div_eq_mul_one_div (e' g n i + e' g n (i + 1))]
    refine half2.mono (by positivity) ?_
    rw [mul_one, show c * F * Q * (c * Q) ^ g = F * (c * Q) ^ (g + 1) by rw [pow_succ]; ring,
      show c * ((c * Q) ^ p.groups) ^ (j + 1) = F * (c * Q) ^ p.groups by rw [hF, pow_succ, mul_assoc]]
    exact mul_le_mul_of_nonneg_left (pow_le_pow_right₀ hcQ hg) hF0.le

/-- A fully implicit sequence, with the previous flux moved to the right-hand side. -/
theorem implicit_shift {p : Problem K} {xsTotal : ℕ → ℕ → K} {xs : ℕ → ℕ → ℕ → K} {velocity : ℕ → K}
    {dt : K} {external boundary : TimeArr K} {steps : ℕ} {psi : ℕ → ℕ → ℕ → ℕ → K}
    (h : FullyImplicit false p xsTotal xs velocity external boundary dt steps psi) :
    ∀ j < steps, ImplicitStep p (fun m g => xsTotal m g + 1 / (velocity g * dt)) xs (quadrature p (psi (j + 1)))
      (fun i n g => -(1 / (velocity g * dt) * psi j i n g)) (entry external j) (entry boundary j) (psi (j + 1)) := by
  intro j hj
  obtain ⟨e, he⟩ := h j hj
  refine ⟨e, fun g hg => ⟨(he g hg).1, fun n hn i hi => ?_, (he g hg).2.2⟩⟩
  have h1 := (he g hg).2.1 n hn i hi
  unfold timeRate at h1
  rw [if_neg (fun h => Bool.false_ne_true h.1)] at h1
  rw [← h1]
  ring

/-- The flux determined by the previous steps, as a function of the factor. -/
theorem quadrature_near {p : Problem K} (hw : ∀ n < p.angles, 0 ≤ p.angleW n) {F : K} (hF : 1 ≤ F)
    {a b : ℕ → ℕ → ℕ → K} {i g : ℕ} (h : ∀ n < p.angles, WithinFactor F (a i n g) (b i n g)) :
    WithinFactor F (quadrature p a i g) (quadrature p b i g) := by
  unfold quadrature
  refine sum_near hF fun n hn => ?_
  have := (WithinFactor.refl (c := (1 : K)) le_rfl (hw n hn)).mul one_pos (by linarith) (h n hn)
  rwa [one_mul] at this

theorem stepsFactor_bound {th eps c Q : K} {N G j : ℕ} (heps : 0 ≤ eps) (hth1 : th < 1) (hc1 : 1 ≤ c) (hQ0 : 0 ≤ Q)
    (hce : c * (1 - eps) ≤ 1) (hF : c * Q * (1 - dataCost th N * eps) ≤ 1) :
    c * ((c * Q) ^ G) ^ j * (1 - (1 + (j : K) * G * dataCost th N) * eps) ≤ 1 := by
  have hD : 0 ≤ dataCost th N := by
    unfold dataCost
    have : (0 : K) < 1 - th := by linarith
    positivity
  have hc0 : 0 ≤ c := by linarith
  have b1 := bound_pow (mul_nonneg hc0 hQ0) (mul_nonneg hD heps) hF (G * j)
  have b2 := bound_mul hc0 (by positivity) heps (by positivity) hce b1
  rw [← pow_mul]
  refine le_trans (le_of_eq ?_) b2
  push_cast
  ring

/-- C216: the same for backward Euler: data (cell widths, cross sections, fission, velocities, sources,
boundary values, initial flux) known up to the factor `1/(1 - eps)` determine the flux of step `j` up to the factor
`1/(1 - (1 + (j + 1) G D) eps)` with the `D` of C215: uncertainty grows at most in proportion to the number of steps. -/
theorem C216_time_conditioning {th eps : K} (heps : 0 ≤ eps) (hth0 : 0 ≤ th) (hth1 : th < 1) (p : Problem K)
    (hN : 0 < p.cells) (hG : 0 < p.groups) (dx' : ℕ → K) (xsTotal xsTotal' : ℕ → ℕ → K) (xs xs' : ℕ → ℕ → ℕ → K)
    (fission fission' : Fission K) (velocity velocity' : ℕ → K) (external external' boundary boundary' : TimeArr K)
    (steps : ℕ) (dt : K) (init init' : ℕ → ℕ → ℕ → K)
    (hok : TimedOk p xsTotal velocity dt) (hext : Covers external steps) (hbnd : Covers boundary steps)
    (hext' : Covers external' steps) (hbnd' : Covers boundary' steps)
    (hfine : ∀ g < p.groups, ∀ n < p.angles, ∀ i < p.cells,
      (xsTotal (p.mm i) g + 1 / (velocity g * dt)) * p.dx i ≤ th * (2 * |p.angleX n|))
    (hw : ∀ n < p.angles, 0 ≤ p.angleW n)
    (hdown : ∀ m g g', g ≤ g' → xs m g g' + fissionMatrix fission m g g' = 0
      ∧ xs' m g g' + fissionMatrix fission' m g g' = 0)
    (ndx : ∀ i < p.cells, WithinFactor (1 / (1 - eps)) (p.dx i) (dx' i))
    (nT : ∀ i < p.cells, ∀ g < p.groups, WithinFactor (1 / (1 - eps)) (xsTotal (p.mm i) g) (xsTotal' (p.mm i) g))
    (nS : ∀ i < p.cells, ∀ g < p.groups, ∀ g' < g, WithinFactor (1 / (1 - eps)) (xs (p.mm i) g g') (xs' (p.mm i) g g'))
    (nf : ∀ i < p.cells, ∀ g < p.groups, ∀ g' < g, WithinFactor (1 / (1 - eps)) (fissionMatrix fission (p.mm i) g g')
      (fissionMatrix fission' (p.mm i) g g'))
    (nv : ∀ g < p.groups, WithinFactor (1 / (1 - eps)) (velocity g) (velocity' g))
    (next : ∀ j < steps, ∀ i < p.cells, ∀ n < p.angles, ∀ g < p.groups,
      WithinFactor (1 / (1 - eps)) (sourceAt (entry external j) i n g) (sourceAt (entry external' j) i n g))
    (nbnd : ∀ j < steps, ∀ s < 2, ∀ n < p.angles, ∀ g < p.groups,
      WithinFactor (1 / (1 - eps)) (sourceAt (entry boundary j) s n g) (sourceAt (entry boundary' j) s n g))
    (ninit : ∀ i < p.cells, ∀ n < p.angles, ∀ g < p.groups, WithinFactor (1 / (1 - eps)) (init i n g) (init' i n g)) :
    dataCost th p.cells * eps < 1 →
    ∃ out out', backwardEuler p xsTotal (.iso xs) fission velocity external boundary steps dt init = .ok out ∧
      backwardEuler { p with dx := dx' } xsTotal' (.iso xs') fission' velocity' external' boundary' steps dt init'
        = .ok out' ∧
      ∀ j < steps, (1 + ((j : K) + 1) * p.groups * dataCost th p.cells) * eps < 1 → ∀ i < p.cells, ∀ g < p.groups,
        WithinFactor (1 / (1 - (1 + ((j : K) + 1) * p.groups * dataCost th p.cells) * eps)) (out j i g) (out' j i g) := by
  intro hcost
  obtain ⟨c, hc⟩ : ∃ c, c = 1 / (1 - eps) := ⟨_, rfl⟩
  obtain ⟨hc1, hth2, hce, hF⟩ := groupFactor_bound hN heps hth0 hth1 hcost hc
  have hc0 : 0 < c := by linarith
  rw [← hc] at ndx nT nS nf nv next nbnd ninit
  have nrate : ∀ g < p.groups, WithinFactor c (1 / (velocity g * dt)) (1 / (velocity' g * dt)) := fun g hg => by
    have h1 := (nv g hg).mul hc0 one_pos (WithinFactor.refl (c := 1) le_rfl hok.dt.le)
    rw [mul_one] at h1
    have := (WithinFactor.refl (c := (1 : K)) le_rfl zero_le_one).div one_pos hc0
      (mul_pos (hok.velocity g hg) hok.dt) h1
    rwa [one_mul] at this
  have hok' : TimedOk { p with dx := dx' } xsTotal' velocity' dt :=
    ⟨fun g hg => ⟨(hok.ok g hg).slab, (hok.ok g hg).nonzero, fun i hi =>
      ⟨factor_pos hc0 (ndx i hi) ((hok.ok g hg).phys i hi).1, (nT i hi g hg).1⟩⟩, hok.angles,
      fun g hg => factor_pos hc0 (nv g hg) (hok.velocity g hg), hok.dt⟩
  obtain ⟨out, psi, a1, a2, a3, a4⟩ := timed_downscatter false p xsTotal xs fission velocity external boundary steps dt
    init hok hG hext hbnd fun m g g' h => (hdown m g g' h).1
  obtain ⟨out', psi', b1, b2, b3, b4⟩ := timed_downscatter false { p with dx := dx' } xsTotal' xs' fission' velocity'
    external' boundary' steps dt init' hok' hG hext' hbnd' fun m g g' h => (hdown m g g' h).2
  obtain ⟨s, hs⟩ : ∃ s, s = c * (1 - th) / (1 - th * c ^ 2) := ⟨_, rfl⟩
  have hs1 : 1 ≤ s := by rw [hs]; exact one_le_subFactor hc1 hth0 hth2
  have hs0 : 0 < s := by linarith
  have hsc : 1 ≤ s * c := by nlinarith
  have hok1 := xsStar_ok hok (zero_le_one (α := K))
  have key := steps_near hc1 hth0 hth2 hs p dx' (fun m g => xsTotal m g + 1 / (velocity g * dt))
    (fun m g => xsTotal' m g + 1 / (velocity' g * dt)) (fun m g g' => xs m g g' + fissionMatrix fission m g g')
    (fun m g g' => xs' m g g' + fissionMatrix fission' m g g') (fun g => 1 / (velocity g * dt))
    (fun g => 1 / (velocity' g * dt)) (entry external) (entry external') (entry boundary) (entry boundary') steps
    hok1 hfine hw (fun m g g' h => (hdown m g g' h).1) (fun m g g' h => (hdown m g g' h).2) ndx
    (fun i hi g hg => (nT i hi g hg).add (nrate g hg)) (fun i hi g hg g' hg' => (nS i hi g hg g' hg').add (nf i hi g hg g' hg'))
    nrate next nbnd psi psi' (by rw [a2, b2]; exact ninit) (implicit_shift a3) (implicit_shift b3)
  refine ⟨out, out', a1, b1, fun j hj hj1 i hi g hg => ?_⟩
  obtain ⟨Q, hQ⟩ : ∃ Q, Q = ((s * c) ^ p.cells) ^ 2 := ⟨_, rfl⟩
  have hQ1 : 1 ≤ Q := hQ ▸ one_le_pow₀ (one_le_pow₀ hsc)
  have hcQ : 1 ≤ c * Q := by nlinarith
  rw [← hs, ← hQ] at hF
  rw [← hQ] at key
  rw [a4 j hj i hi g hg, show out' j i g = quadrature p (psi' (j + 1)) i g from b4 j hj i hi g hg]
  have hFac : 1 ≤ c * ((c * Q) ^ p.groups) ^ (j + 1) := by
    nlinarith [one_le_pow₀ (n := j + 1) (one_le_pow₀ (n := p.groups) hcQ)]
  have near := quadrature_near hw hFac fun n hn => key (j + 1) hj i hi n hn g hg
  refine near.mono (by linarith) ?_
  have b := stepsFactor_bound (G := p.groups) (j := j + 1) heps hth1 hc1 (by linarith) hce hF
  push_cast at b
  rw [le_div_iff₀ (by linarith)]
  exact b

/-! ## C217: floating point against the exact integrator -/

set_option maxHeartbeats 2000000 in
/-- C217: backward Euler in floating point agrees with backward Euler in exact arithmetic. -/
theorem C217_rounded_vs_exact {rnd : K → K} {u th : K} (p : Problem K) (xsTotal : ℕ → ℕ → K)
    (xs : ℕ → ℕ → ℕ → K) (fission : Fission K) (velocity : ℕ → K) (external boundary : TimeArr K) (steps : ℕ) (dt : K)
    (init : ℕ → ℕ → ℕ → K) (hu : 0 ≤ u) (herr : RelativeError u rnd) (hth0 : 0 ≤ th) (hth1 : th < 1)
    (hok : TimedOk p xsTotal velocity dt) (hN : 0 < p.cells) (hG : 0 < p.groups)
    (hext : Covers external steps) (hbnd : Covers boundary steps)
    (hfine : ∀ g < p.groups, ∀ n < p.angles, ∀ i < p.cells,
      (xsTotal (p.mm i) g + 1 / (velocity g * dt)) * p.dx i ≤ th * (1 - 3 * u) * (2 * |p.angleX n|))
    (hw : ∀ n < p.angles, 0 ≤ p.angleW n)
    (hxs : ∀ i < p.cells, ∀ g < p.groups, ∀ g' < p.groups, 0 ≤ xs (p.mm i) g g' ∧ 0 ≤ fissionMatrix fission (p.mm i) g g')
    (hdown : ∀ m g g', g ≤ g' → xs m g g' = 0 ∧ fissionMatrix fission m g g' = 0)
    (hqe : ∀ j < steps, ∀ i < p.cells, ∀ n < p.angles, ∀ g < p.groups, 0 ≤ sourceAt (entry external j) i n g)
    (hbe : ∀ j < steps, ∀ s < 2, ∀ n < p.angles, ∀ g < p.groups, 0 ≤ sourceAt (entry boundary j) s n g)
    (hinit : ∀ i < p.cells, ∀ n < p.angles, ∀ g < p.groups, 0 ≤ init i n g)
    (hcost : sweepCost th p.groups p.cells p.angles * u < 1) (hcost' : dataCost th p.cells * (3 * u) < 1) :
    ∃ out exact, Rounded.backwardEuler rnd p xsTotal xs fission velocity external boundary steps dt init = .ok out ∧
      backwardEuler p xsTotal (.iso xs) fission velocity external boundary steps dt init = .ok exact ∧
      ∀ j < steps, (3 + ((j : K) + 1) * (timeCost th p.groups p.cells p.angles + 3 * p.groups * dataCost th p.cells)) * u < 1 →
        ∀ i < p.cells, ∀ g < p.groups,
          WithinFactor (1 / (1 - (3 + ((j : K) + 1)
            * (timeCost th p.groups p.cells p.angles + 3 * p.groups * dataCost th p.cells)) * u))
            (exact j i g) (out j i g) := by
  obtain ⟨r, hr⟩ : ∃ r : K, r = 1 / (1 - u) := ⟨_, rfl⟩
  obtain ⟨c, hc⟩ : ∃ c, c = 1 / (1 - 3 * u) := ⟨_, rfl⟩
  obtain ⟨hc1, hth2, hce, hF⟩ := groupFactor_bound hN (by linarith : 0 ≤ 3 * u) hth0 hth1 hcost' hc
  have hc0 : 0 < c := by linarith
  have h3u : 3 * u < 1 := by
    have : 1 * (3 * u) ≤ dataCost th p.cells * (3 * u) := by
      refine mul_le_mul_of_nonneg_right ?_ (by linarith)
      unfold dataCost
      have : (0 : K) < 1 - th := by linarith
      have : 0 ≤ 2 * (p.cells : K) * (1 + 2 / (1 - th)) := by positivity
      linarith
    linarith
  have hu1 : u < 1 := by linarith
  have hp : 0 < 1 - u := by linarith
  have hr1 : 1 ≤ r := by rw [hr, le_div_iff₀ hp]; linarith
  have hr0 : 0 < r := by linarith
  have hr3 : r ^ 3 ≤ c := by
    have := bound_pow hr0.le hu (le_of_eq (by rw [hr]; field_simp)) 3
    rw [hc, le_div_iff₀ (by linarith)]
    push_cast at this
    exact this
  have hr2 : r ^ 2 ≤ c := (pow_le_pow_right₀ hr1 (by norm_num)).trans hr3
  have hw' := herr.within hu hu1
  rw [← hr] at hw'
  have rnd0 : rnd 0 = 0 := by
    have := herr 0
    rw [sub_zero, abs_zero, mul_zero] at this
    exact abs_eq_zero.mp (le_antisymm this (abs_nonneg _))
  -- coefficients
  have hrate : ∀ g < p.groups, WithinFactor c (1 / (velocity g * dt)) (floatRate rnd velocity dt g) := fun g hg => by
    have hv := mul_pos (hok.velocity g hg) hok.dt
    have := ((WithinFactor.refl le_rfl zero_le_one).div one_pos hr0 hv (hw' _ hv.le)).round hw' (by positivity) hr0
    rw [one_mul, ← sq] at this
    exact this.mono (by positivity) hr2
  have hsig : ∀ i < p.cells, ∀ g < p.groups, WithinFactor c (xsTotal (p.mm i) g + 1 / (velocity g * dt))
      (rnd (xsTotal (p.mm i) g + floatRate rnd velocity dt g)) := fun i hi g hg => by
    have hv := mul_pos (hok.velocity g hg) hok.dt
    have h1 := ((WithinFactor.refl le_rfl zero_le_one).div one_pos hr0 hv (hw' _ hv.le)).round hw' (by positivity) hr0
    rw [one_mul, ← sq] at h1
    have := ((WithinFactor.refl (c := r ^ 2) (by nlinarith) ((hok.ok g hg).phys i hi).2).add h1).round hw'
      (by positivity) hr0
    rw [← pow_succ] at this
    exact this.mono (by positivity) hr3
  have hX : ∀ i < p.cells, ∀ g < p.groups, ∀ g' < p.groups, WithinFactor c
      (xs (p.mm i) g g' + fissionMatrix fission (p.mm i) g g') (floatTransfer rnd xs fission (p.mm i) g g') := by
    intro i hi g hg g' hg'
    obtain ⟨h1, h2⟩ := hxs i hi g hg g' hg'
    cases fission with
    | matrix f =>
      exact (hw' _ (add_nonneg h1 h2)).mono hr0 ((by nlinarith : r ≤ r ^ 2).trans hr2)
    | vector chi nu =>
      have := ((WithinFactor.refl hr1 h1).add (hw' _ h2)).round hw' hr0 hr0
      rw [← sq] at this
      exact this.mono (by positivity) hr2
  have hdownX : ∀ m g g', g ≤ g' → xs m g g' + fissionMatrix fission m g g' = 0 := fun m g g' h => by
    rw [(hdown m g g' h).1, (hdown m g g' h).2, add_zero]
  have hdownR : ∀ m g g', g ≤ g' → floatTransfer rnd xs fission m g g' = 0 := fun m g g' h => by
    have h1 := (hdown m g g' h).1
    have h2 := (hdown m g g' h).2
    cases fission with
    | matrix f =>
      show rnd (xs m g g' + f m g g') = 0
      rw [h1, show f m g g' = 0 from h2, add_zero, rnd0]
    | vector chi nu =>
      show rnd (xs m g g' + rnd (chi m g * nu m g')) = 0
      rw [h1, show chi m g * nu m g' = 0 from h2, rnd0, add_zero, rnd0]
  have hokR : ∀ g < p.groups, SlabOk p (fun m g => rnd (xsTotal m g + floatRate rnd velocity dt g)) g := fun g hg =>
    ⟨(hok.ok g hg).slab, (hok.ok g hg).nonzero, fun i hi => ⟨((hok.ok g hg).phys i hi).1, (hsig i hi g hg).1⟩⟩
  have hfineE : ∀ g < p.groups, ∀ n < p.angles, FineBy th p.cells (p.angleX n) p.dx
      (fun i => xsTotal (p.mm i) g + 1 / (velocity g * dt)) := fun g hg n hn i hi =>
    (hfine g hg n hn i hi).trans (mul_le_mul_of_nonneg_right
      (mul_le_of_le_one_right hth0 (by linarith)) (by positivity))
  have hfineR : ∀ g < p.groups, ∀ n < p.angles, FineBy th p.cells (p.angleX n) p.dx
      (fun i => rnd (xsTotal (p.mm i) g + floatRate rnd velocity dt g)) := fun g hg n hn i hi => by
    have h1 := mul_le_mul_of_nonneg_right (hsig i hi g hg).2.1 ((hok.ok g hg).phys i hi).1.le
    refine h1.trans ?_
    rw [mul_assoc]
    refine (mul_le_mul_of_nonneg_left (hfine g hg n hn i hi) hc0.le).trans (le_of_eq ?_)
    rw [hc]
    field_simp
  -- the reference and the exact steps
  obtain ⟨ref, href⟩ := C214_reference_exists rnd p xsTotal xs fission velocity external boundary steps dt init hokR hdownR
  obtain ⟨out, o1, o2⟩ := C214_rounded_backward_euler p xsTotal xs fission velocity external boundary steps dt init hu herr
    hth0 hth1 hok hN hext hbnd hfineR hw hxs hdownR hqe hbe hinit hcost ref href
  obtain ⟨exact, psi, a1, a2, a3, a4⟩ := timed_downscatter false p xsTotal xs fission velocity external boundary steps dt
    init hok hG hext hbnd hdownX
  obtain ⟨s, hs⟩ : ∃ s, s = c * (1 - th) / (1 - th * c ^ 2) := ⟨_, rfl⟩
  have hs1 : 1 ≤ s := by rw [hs]; exact one_le_subFactor hc1 hth0 hth2
  have hs0 : 0 < s := by linarith
  have hsc : 1 ≤ s * c := by nlinarith
  have key := steps_near hc1 hth0 hth2 hs p p.dx (fun m g => xsTotal m g + 1 / (velocity g * dt))
    (fun m g => rnd (xsTotal m g + floatRate rnd velocity dt g)) (fun m g g' => xs m g g' + fissionMatrix fission m g g')
    (floatTransfer rnd xs fission) (fun g => 1 / (velocity g * dt))
    (floatRate rnd velocity dt) (entry external) (entry external) (entry boundary) (entry boundary) steps
    (xsStar_ok hok (zero_le_one (α := K))) hfineE hw hdownX hdownR
    (fun i hi => WithinFactor.refl hc1 ((hok.ok 0 hG).phys i hi).1.le) hsig
    (fun i hi g hg g' hg' => hX i hi g hg g' (by omega)) hrate
    (fun j hj i hi n hn g hg => WithinFactor.refl hc1 (hqe j hj i hi n hn g hg))
    (fun j hj s hs n hn g hg => WithinFactor.refl hc1 (hbe j hj s hs n hn g hg)) psi ref
    (fun i hi n hn g hg => by
      rw [a2, href.start i hi n hn g hg]; exact WithinFactor.refl hc1 (hinit i hi n hn g hg))
    (implicit_shift a3) href.step
  refine ⟨out, exact, o1, a1, fun j hj hj1 i hi g hg => ?_⟩
  obtain ⟨Q, hQ⟩ : ∃ Q, Q = ((s * c) ^ p.cells) ^ 2 := ⟨_, rfl⟩
  have hQ1 : 1 ≤ Q := hQ ▸ one_le_pow₀ (one_le_pow₀ hsc)
  have hcQ : 1 ≤ c * Q := by nlinarith
  rw [← hs, ← hQ] at hF
  rw [← hQ] at key
  have hFac : 1 ≤ c * ((c * Q) ^ p.groups) ^ (j + 1) := by
    nlinarith [one_le_pow₀ (n := j + 1) (one_le_pow₀ (n := p.groups) hcQ)]
  have near := quadrature_near hw hFac fun n hn => key (j + 1) hj i hi n hn g hg
  have b := stepsFactor_bound (G := p.groups) (j := j + 1) (by linarith : 0 ≤ 3 * u) hth1 hc1 (by linarith) hce hF
  have hD0 : 0 ≤ dataCost th p.cells := by
    unfold dataCost
    have : (0 : K) < 1 - th := by linarith
    positivity
  have hT0 : 0 ≤ timeCost th p.groups p.cells p.angles := by
    unfold timeCost
    have := sweepCost_nonneg hth1 p.groups p.cells p.angles
    positivity
  obtain ⟨y, hy⟩ : ∃ y, y = ((j : K) + 1) * timeCost th p.groups p.cells p.angles * u := ⟨_, rfl⟩
  obtain ⟨x, hx⟩ : ∃ x, x = (1 + ((j + 1 : ℕ) : K) * p.groups * dataCost th p.cells) * (3 * u) := ⟨_, rfl⟩
  have hy0 : 0 ≤ y := by rw [hy]; positivity
  have hx0 : 0 ≤ x := by rw [hx]; positivity
  have hxy : (3 + ((j : K) + 1) * (timeCost th p.groups p.cells p.angles + 3 * p.groups * dataCost th p.cells)) * u
      = x + y := by rw [hx, hy]; push_cast; ring
  rw [hxy] at hj1 ⊢
  have near2 := o2 j hj (by rw [← hy]; linarith) i hi g hg
  rw [← hy] at near2
  rw [a4 j hj i hi g hg]
  have hy1 : 0 < 1 - y := by linarith
  refine (near.trans (by linarith) (by positivity) near2).mono (by positivity) ?_
  rw [← hx] at b
  have b5 := bound_mul (by linarith) (by positivity : 0 ≤ 1 / (1 - y)) hx0 hy0 b
    (by rw [one_div, inv_mul_cancel₀ hy1.ne'])
  rw [le_div_iff₀ (by linarith)]
  exact b5

/-! ### Examples -/

theorem exFlat_abs (n : ℕ) : |(exFlat ℚ).angleX n| = 1 / 2 := by
  show |if n = 0 then (-1 / 2 : ℚ) else 1 / 2| = 1 / 2
  split <;> norm_num [abs_of_pos, abs_of_neg]

-- C215: every datum of the two-cell problem uncertain by one part in a thousand: both fluxes within 4.4%
example : ∃ phi phi', sourceIteration (exFlat ℚ) (fun _ _ => 1) (.iso (exFlatXs ℚ)) ⟨1, 2, fun i _ g => (i + g : ℕ)⟩
      ⟨1, 1, fun _ _ _ => 1⟩ (fun _ _ => 1) = .ok phi ∧
    sourceIteration { exFlat ℚ with dx := fun i => if i = 0 then 1001 / 10000 else 1 / 10 } (fun _ _ => 999 / 1000)
      (.iso fun _ g g' => if g = 1 ∧ g' = 0 then 1001 / 2000 else 0)
      ⟨1, 2, fun i _ g => (i + g : ℕ) * (1001 / 1000)⟩ ⟨1, 1, fun _ _ _ => 999 / 1000⟩ (fun _ _ => 0) = .ok phi' ∧
    ∀ g < 2, ∀ i < 2, WithinFactor (1044 / 1000) (phi i g) (phi' i g) := by
  obtain ⟨phi, phi', h1, h2, h3⟩ := C215_relative_conditioning (th := 1 / 2) (eps := 1 / 1000) (by norm_num) (by norm_num)
    (by norm_num) (exFlat ℚ) (by show 0 < 2; omega) (fun i => if i = 0 then 1001 / 10000 else 1 / 10) (fun _ _ => 1)
    (fun _ _ => 999 / 1000) (exFlatXs ℚ) (fun _ g g' => if g = 1 ∧ g' = 0 then 1001 / 2000 else 0)
    ⟨1, 2, fun i _ g => (i + g : ℕ)⟩ ⟨1, 2, fun i _ g => (i + g : ℕ) * (1001 / 1000)⟩
    ⟨1, 1, fun _ _ _ => 1⟩ ⟨1, 1, fun _ _ _ => 999 / 1000⟩ (fun _ _ => 1) (fun _ _ => 0) (fun g _ => exFlat_ok g)
    (fun g _ n _ i _ => by rw [exFlat_abs]; show (1 : ℚ) * (1 / 10) ≤ _; norm_num)
    exFlat_tame.weights
    (fun m g g' h => by
      have : ¬ (g = 1 ∧ g' = 0) := by omega
      simp [exFlatXs, this])
    (fun i _ => by
      show WithinFactor _ (1 / 10 : ℚ) _
      split <;> norm_num [WithinFactor])
    (fun i _ g _ => by norm_num [WithinFactor])
    (fun i _ g _ g' _ => by simp only [exFlatXs]; split <;> norm_num [WithinFactor])
    (fun i _ n _ g _ => by
      simp only [sourceAt]
      generalize bidx 2 g = k
      have hk : (0 : ℚ) ≤ (i + k : ℕ) := Nat.cast_nonneg _
      unfold WithinFactor
      norm_num at hk ⊢
      refine ⟨by positivity, by linarith, by linarith⟩)
    (fun s _ n _ g _ => by norm_num [sourceAt, WithinFactor]) (by norm_num [dataCost, exFlat])
  refine ⟨phi, phi', h1, h2, fun g hg i hi => ?_⟩
  have hg' : ((g : ℕ) : ℚ) ≤ 1 := by exact_mod_cast (by omega : g ≤ 1)
  have hg0 : (0 : ℚ) ≤ g := Nat.cast_nonneg g
  have e : ((g : ℚ) + 1) * dataCost (1 / 2) (exFlat ℚ).cells * (1 / 1000) ≤ 42 / 1000 := by
    have : dataCost (1 / 2 : ℚ) (exFlat ℚ).cells = 21 := by norm_num [dataCost, exFlat]
    rw [this]; linarith
  refine (h3 g hg (by linarith) i hi).mono (div_pos one_pos (by linarith)) ?_
  rw [div_le_iff₀ (by linarith)]
  linarith

-- C216: velocities, the initial flux and a fission matrix given as vectors, in three time steps
example := C216_time_conditioning (th := 1 / 2) (eps := 1 / 1000) (by norm_num) (by norm_num) (by norm_num) (exFlat ℚ)
  (by show 0 < 2; omega) (by show 0 < 2; omega) (exFlat ℚ).dx (fun _ _ => 1) (fun _ _ => 1001 / 1000) (exFlatXs ℚ)
  (exFlatXs ℚ) (.matrix fun _ _ _ => 0) (.vector (fun _ _ => 0) fun _ _ => 1) (fun _ => 1) (fun _ => 999 / 1000)
  ⟨3, fun j => ⟨1, 2, fun _ _ g => (j + g : ℕ)⟩⟩ ⟨3, fun j => ⟨1, 2, fun _ _ g => (j + g : ℕ)⟩⟩
  ⟨1, fun _ => ⟨1, 1, fun _ _ _ => 1⟩⟩ ⟨1, fun _ => ⟨1, 1, fun _ _ _ => 1⟩⟩ 3 (1 / 2) (fun _ _ _ => 1)
  (fun _ _ _ => 1001 / 1000) exFlat_timed (Or.inr le_rfl) (Or.inl rfl) (Or.inr le_rfl) (Or.inl rfl)
  (fun g _ n _ i _ => by rw [exFlat_abs]; show ((1 : ℚ) + 1 / (1 * (1 / 2))) * (1 / 10) ≤ _; norm_num)
  exFlat_tame.weights
  (fun m g g' h => by
    have : ¬ (g = 1 ∧ g' = 0) := by omega
    simp [exFlatXs, this, fissionMatrix])
  (fun i _ => WithinFactor.refl (by norm_num) (by norm_num [exFlat]))
  (fun i _ g _ => by norm_num [WithinFactor])
  (fun i _ g _ g' _ => WithinFactor.refl (by norm_num) (by simp only [exFlatXs]; split <;> norm_num))
  (fun i _ g _ g' _ => by norm_num [WithinFactor, fissionMatrix])
  (fun g _ => by norm_num [WithinFactor])
  (fun j _ i _ n _ g _ => WithinFactor.refl (by norm_num) (by simp only [sourceAt, entry]; split <;> positivity))
  (fun j _ s _ n _ g _ => by norm_num [sourceAt, entry, WithinFactor])
  (fun i _ n _ g _ => by norm_num [WithinFactor]) (by norm_num [dataCost, exFlat])

-- C217: 53 bits, three time steps: twelve digits of the exact integrator
example : ∃ out exact,
    Rounded.backwardEuler (toNearest 53) (exFlat ℚ) (fun _ _ => 1) (exFlatXs ℚ) (.matrix fun _ _ _ => 0)
      (fun _ => 1) ⟨3, fun j => ⟨1, 2, fun _ _ g => (j + g : ℕ)⟩⟩ ⟨1, fun _ => ⟨1, 1, fun _ _ _ => 1⟩⟩ 3 (1 / 2)
      (fun _ _ _ => 1) = .ok out ∧
    backwardEuler (exFlat ℚ) (fun _ _ => 1) (.iso (exFlatXs ℚ)) (.matrix fun _ _ _ => 0)
      (fun _ => 1) ⟨3, fun j => ⟨1, 2, fun _ _ g => (j + g : ℕ)⟩⟩ ⟨1, fun _ => ⟨1, 1, fun _ _ _ => 1⟩⟩ 3 (1 / 2)
      (fun _ _ _ => 1) = .ok exact ∧
    ∀ j < 3, ∀ i < 2, ∀ g < 2, WithinFactor (1 + 1 / 10 ^ 12) (exact j i g) (out j i g) := by
  obtain ⟨out, exact, h1, h2, h3⟩ := C217_rounded_vs_exact (rnd := toNearest 53) (u := 1 / 2 ^ 53) (th := 1 / 2) (exFlat ℚ)
    (fun _ _ => 1) (exFlatXs ℚ) (.matrix fun _ _ _ => 0) (fun _ => 1) ⟨3, fun j => ⟨1, 2, fun _ _ g => (j + g : ℕ)⟩⟩
    ⟨1, fun _ => ⟨1, 1, fun _ _ _ => 1⟩⟩ 3 (1 / 2) (fun _ _ _ => 1) (by positivity) (toNearest_error 53) (by norm_num)
    (by norm_num) exFlat_timed (by show 0 < 2; omega) (by show 0 < 2; omega) (Or.inr le_rfl) (Or.inl rfl)
    (fun g _ n _ i _ => by rw [exFlat_abs]; show ((1 : ℚ) + 1 / (1 * (1 / 2))) * (1 / 10) ≤ _; norm_num)
    exFlat_tame.weights
    (fun _ _ g _ g' _ => ⟨by simp only [exFlatXs]; split <;> norm_num, le_refl (0 : ℚ)⟩)
    (fun m g g' h => ⟨by rw [exFlatXs, if_neg (by omega)], rfl⟩)
    (fun j _ i _ n _ g _ => by simp only [sourceAt, entry]; split <;> positivity)
    (fun j _ s _ n _ g _ => zero_le_one) (fun _ _ _ _ _ _ => zero_le_one) (by norm_num [exFlat, sweepCost])
    (by norm_num [exFlat, dataCost])
  refine ⟨out, exact, h1, h2, fun j hj i hi g hg => ?_⟩
  have hj' : ((j : ℕ) : ℚ) ≤ 2 := by exact_mod_cast (by omega : j ≤ 2)
  have hj0 : (0 : ℚ) ≤ j := Nat.cast_nonneg j
  have hc : (3 + ((j : ℚ) + 1) * (timeCost (1 / 2) (exFlat ℚ).groups (exFlat ℚ).cells (exFlat ℚ).angles
      + 3 * (exFlat ℚ).groups * dataCost (1 / 2) (exFlat ℚ).cells)) * (1 / 2 ^ 53) ≤ 3 / 10 ^ 13 := by
    calc _ ≤ (3 + (2 + 1) * (timeCost (1 / 2 : ℚ) (exFlat ℚ).groups (exFlat ℚ).cells (exFlat ℚ).angles
        + 3 * (exFlat ℚ).groups * dataCost (1 / 2) (exFlat ℚ).cells)) * (1 / 2 ^ 53) := by
          refine mul_le_mul_of_nonneg_right (add_le_add le_rfl
            (mul_le_mul_of_nonneg_right (by linarith) ?_)) (by positivity)
          norm_num [exFlat, timeCost, sweepCost, dataCost]
      _ ≤ _ := by norm_num [exFlat, timeCost, sweepCost, dataCost]
  have hlt := hc.trans_lt (by norm_num : (3 : ℚ) / 10 ^ 13 < 1)
  refine (h3 j hj hlt i hi g hg).mono (div_pos one_pos (by linarith)) ?_
  rw [div_le_iff₀ (by linarith)]
  obtain ⟨y, hy⟩ : ∃ y, y = (3 + ((j : ℚ) + 1) * (timeCost (1 / 2) (exFlat ℚ).groups (exFlat ℚ).cells (exFlat ℚ).angles
      + 3 * (exFlat ℚ).groups * dataCost (1 / 2) (exFlat ℚ).cells)) * (1 / 2 ^ 53) := ⟨_, rfl⟩
  rw [← hy] at hc ⊢
  norm_num at hc ⊢
  linarith

end Discrete1.Props
