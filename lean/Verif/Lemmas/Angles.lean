import Verif.Lemmas.Slab

/-! The loop over the ordinates: what one full sweep computes. -/

set_option linter.unusedSectionVars false
set_option linter.unusedSimpArgs false

namespace Discrete1.Slab

open Finset Discrete1.Tools Discrete1.Spec

variable {K : Type*} [Field K] [LinearOrder K] [IsStrictOrderedRing K]

theorem sweep_spec {S : Type*} (A N : ℕ) (mu : ℕ → K) (bcL bcR : Bool) (bL bR : ℕ → K)
    (Sol : ℕ → (ℕ → K) → Prop) (step : ℕ → AngleState K S → AngleState K S)
    (Acc : ℕ → (ℕ → ℕ → K) → S → Prop) (start : S) (psi0 : ℕ → ℕ → K) (h0 : Acc 0 psi0 start)
    (hstep : ∀ n < A, ∀ psi (s : AngleState K S), Acc n psi s.acc → ∃ p,
      Sol n p ∧ inflow N (mu n) p = s.reflector n + (if 0 < mu n then bL n else bR n) ∧
      Acc (n + 1) (Function.update psi n p) (step n s).acc ∧
      (step n s).reflector
        = reflectorCorrector A s.reflector mu (outflow N (mu n) p) n bcL bcR) :
    ∃ psi, Acc A psi (loop A step ⟨start, fun _ => 0, 0⟩).acc ∧ (∀ n < A, Sol n (psi n)) ∧
      SweptInflow N A mu bcL bcR bL bR psi := by
  have key : ∀ k ≤ A, ∃ psi, Acc k psi (loop k step ⟨start, fun _ => 0, 0⟩).acc ∧
      (∀ n < k, Sol n (psi n) ∧ inflow N (mu n) (psi n) = (if 0 < mu n then bL n else bR n) +
        (if A - 1 - n < n ∧ leavesReflecting bcL bcR (mu (A - 1 - n)) then
          outflow N (mu (A - 1 - n)) (psi (A - 1 - n)) else 0)) ∧
      (∀ j < A, (loop k step ⟨start, fun _ => 0, 0⟩).reflector j =
        if A - 1 - j < k ∧ leavesReflecting bcL bcR (mu (A - 1 - j)) then
          outflow N (mu (A - 1 - j)) (psi (A - 1 - j)) else 0) := by
    intro k
    induction k with
    | zero =>
      intro _
      exact ⟨psi0, h0, fun n hn => absurd hn (Nat.not_lt_zero _), fun j _ => by simp⟩
    | succ k ih =>
      intro hk
      obtain ⟨psi, hacc, hn, hr⟩ := ih (by omega)
      obtain ⟨p, hsol, hin, hacc', hrefl⟩ := hstep k (by omega) psi _ hacc
      refine ⟨Function.update psi k p, hacc', ?_, ?_⟩
      · intro n hnk
        rcases Nat.lt_succ_iff_lt_or_eq.mp hnk with h | h
        · rw [Function.update_of_ne (by omega)]
          refine ⟨(hn n h).1, ?_⟩
          rw [(hn n h).2]
          congr 1
          by_cases hc : A - 1 - n < n
          · rw [Function.update_of_ne (by omega)]
          · rw [if_neg (by tauto), if_neg (by tauto)]
        · subst h
          rw [Function.update_self]
          refine ⟨hsol, ?_⟩
          rw [hin, hr n (by omega), add_comm]
          congr 1
          by_cases hc : A - 1 - n < n
          · rw [Function.update_of_ne (by omega)]
          · rw [if_neg (by tauto), if_neg (by tauto)]
      · intro j hj
        rw [loop_succ, hrefl]
        have hcond : (0 < mu k ∧ bcR = true ∨ mu k < 0 ∧ bcL = true) ↔
            leavesReflecting bcL bcR (mu k) := Iff.rfl
        unfold reflectorCorrector
        by_cases hjk : A - 1 - j = k
        · rw [hjk, Function.update_self]
          by_cases hl : leavesReflecting bcL bcR (mu k)
          · rw [if_pos (hcond.mpr hl), setAt_apply, if_pos (by omega), if_pos ⟨by omega, hl⟩]
          · rw [if_neg (fun h => hl (hcond.mp h)), hr j hj, hjk, if_neg (fun h => hl h.2),
              if_neg (fun h => hl h.2)]
        · rw [Function.update_of_ne hjk]
          have e1 : (if (0 < mu k ∧ bcR = true ∨ mu k < 0 ∧ bcL = true) then
              setAt (loop k step ⟨start, fun _ => 0, 0⟩).reflector (A - k - 1) (outflow N (mu k) p)
              else (loop k step ⟨start, fun _ => 0, 0⟩).reflector) j
              = (loop k step ⟨start, fun _ => 0, 0⟩).reflector j := by
            split
            · rw [setAt_apply, if_neg (by omega)]
            · rfl
          rw [e1, hr j hj]
          by_cases hl : leavesReflecting bcL bcR (mu (A - 1 - j))
          · by_cases hlt : A - 1 - j < k
            · rw [if_pos ⟨hlt, hl⟩, if_pos ⟨by omega, hl⟩]
            · rw [if_neg (by tauto), if_neg (by omega)]
          · rw [if_neg (by tauto), if_neg (by tauto)]
  obtain ⟨psi, h1, h2, _⟩ := key A (le_refl _)
  exact ⟨psi, h1, fun n hn => (h2 n hn).1, fun n hn => (h2 n hn).2⟩

/-- The body of `angleLoop` for a non-zero ordinate. -/
def pureStep {S : Type*} (angles : ℕ) (angleX : ℕ → K) (bcL bcR : Bool) (inL inR : ℕ → K)
    (fwd bwd : ℕ → S → K → S × K) (nn : ℕ) (s : AngleState K S) : AngleState K S :=
  let r := if 0 < angleX nn then fwd nn s.acc (s.reflector nn + inL nn)
    else bwd nn s.acc (s.reflector nn + inR nn)
  ⟨r.1, reflectorCorrector angles s.reflector angleX r.2 nn bcL bcR, r.2⟩

theorem angleLoop_ok {S : Type*} (angles : ℕ) (angleX : ℕ → K) (bcL bcR : Bool) (inL inR : ℕ → K)
    (fwd bwd : ℕ → S → K → S × K) (start : S) (hne : ∀ n < angles, angleX n ≠ 0) :
    angleLoop angles angleX bcL bcR inL inR fwd bwd start =
      .ok (loop angles (pureStep angles angleX bcL bcR inL inR fwd bwd) ⟨start, fun _ => 0, 0⟩) := by
  unfold angleLoop
  apply loopE_ok
  intro n hn s
  unfold pureStep
  rcases lt_or_gt_of_ne (hne n hn) with h | h
  · simp only [if_neg (not_lt.mpr h.le), if_pos h]
  · simp only [if_pos h]

theorem loopE_error {σ ε : Type*} (n : ℕ) (f : ℕ → σ → Except ε σ) (s : σ) (e : ε)
    (hall : ∀ i < n, ∀ s e', f i s = .error e' → e' = e) (k : ℕ) (hk : k < n)
    (hf : ∀ s, f k s = .error e) : loopE n f s = .error e := by
  induction n with
  | zero => omega
  | succ n ih =>
    rw [loopE_succ]
    rcases Nat.lt_succ_iff_lt_or_eq.mp hk with h | h
    · rw [ih (fun i hi => hall i (by omega)) h]
    · subst h
      have : ∀ m ≤ k, loopE m f s = .error e ∨ ∃ s', loopE m f s = .ok s' := by
        intro m
        induction m with
        | zero => intro _; exact Or.inr ⟨s, rfl⟩
        | succ m ihm =>
          intro hm
          rcases ihm (by omega) with h | ⟨s', h⟩
          · left; rw [loopE_succ, h]
          · rw [loopE_succ, h]
            simp only
            cases hx : f m s' with
            | error e' => left; rw [hall m (by omega) s' e' hx]
            | ok v => right; exact ⟨v, rfl⟩
      rcases this k (le_refl _) with h | ⟨s', h⟩
      · rw [h]
      · rw [h]; exact hf s'

/-- A zero ordinate anywhere in the list makes the loop raise. -/
theorem angleLoop_error {S : Type*} (angles : ℕ) (angleX : ℕ → K) (bcL bcR : Bool)
    (inL inR : ℕ → K) (fwd bwd : ℕ → S → K → S × K) (start : S) (n : ℕ) (hn : n < angles)
    (h0 : angleX n = 0) :
    angleLoop angles angleX bcL bcR inL inR fwd bwd start = .error .discontinuity := by
  unfold angleLoop
  apply loopE_error _ _ _ _ _ n hn
  · intro s; simp [h0]
  · intro i _ s e' h
    split at h
    · cases h
    · split at h
      · cases h
      · cases h; rfl

/-- Contribution of the directional sweeps to one column, in spec terms. -/
theorem dir_spec {N : ℕ} (flux fluxOld xsTotal xsScatter offScatter external : ℕ → K)
    (e : K) (mm : ℕ → ℕ) (dx : ℕ → K) (mu w : K) (edges : Bool) (hmu : mu ≠ 0)
    (hphys : Physical N dx (fun i => xsTotal (mm i))) :
    let r := if 0 < mu then
        forwardIso N flux fluxOld xsTotal xsScatter offScatter external e mm dx mu w edges
      else backwardIso N flux fluxOld xsTotal xsScatter offScatter external e mm dx mu w edges
    ∃ p, CellBalance N mu dx (fun i => xsTotal (mm i))
        (fun i => xsScatter (mm i) * fluxOld i + external i + offScatter i) p ∧
      inflow N mu p = e ∧ outflow N mu p = r.2 ∧
      ∀ i, r.1 i = if edges then (if i ≤ N then flux i + w * p i else flux i)
        else (if i < N then flux i + w * ((p i + p (i + 1)) / 2) else flux i) := by
  intro r
  rcases lt_or_gt_of_ne hmu with h | h
  · have hn : ¬ 0 < mu := not_lt.mpr h.le
    obtain ⟨h1, h2⟩ := backwardIso_eq N flux fluxOld xsTotal xsScatter offScatter external e mm dx mu w
      edges
    refine ⟨bwdSol N mu dx (fun i => xsTotal (mm i))
      (fun i => xsScatter (mm i) * fluxOld i + external i + offScatter i) e, ?_, ?_, ?_, ?_⟩
    · exact bwdSol_balance e fun i hi => (bwd_den_pos h (hphys i hi).1 (hphys i hi).2).ne'
    · simp only [inflow, if_neg hn, bwdSol_top]
    · simp only [outflow, r, if_neg hn]; exact h1.symm
    · simp only [r, if_neg hn]; exact h2
  · obtain ⟨h1, h2⟩ := forwardIso_eq N flux fluxOld xsTotal xsScatter offScatter external e mm dx mu w
      edges
    refine ⟨fwdSol mu dx (fun i => xsTotal (mm i))
      (fun i => xsScatter (mm i) * fluxOld i + external i + offScatter i) e, ?_, ?_, ?_, ?_⟩
    · exact fwdSol_balance e fun i hi => (fwd_den_pos h (hphys i hi).1 (hphys i hi).2).ne'
    · simp only [inflow, if_pos h, fwdSol]
    · simp only [outflow, r, if_pos h]; exact h1.symm
    · simp only [r, if_pos h]; exact h2

/-- What the array being filled looks like: quadrature sums of cell averages or of edge values. -/
def Filled (N A : ℕ) (w : ℕ → K) (edges : Bool) (psi : ℕ → ℕ → K) (flux : ℕ → K) : Prop :=
  ∀ i, flux i = if edges then (if i ≤ N then scalarEdge A w psi i else 0)
    else (if i < N then scalarCenter A w psi i else 0)

theorem filled_step {N n : ℕ} (w : ℕ → K) (edges : Bool) (psi : ℕ → ℕ → K) (flux flux' p : ℕ → K)
    (h : Filled N n w edges psi flux)
    (h' : ∀ i, flux' i = if edges then (if i ≤ N then flux i + w n * p i else flux i)
        else (if i < N then flux i + w n * ((p i + p (i + 1)) / 2) else flux i)) :
    Filled N (n + 1) w edges (Function.update psi n p) flux' := by
  intro i
  rw [h' i, h i]
  have e1 : scalarEdge (n + 1) w (Function.update psi n p) i = scalarEdge n w psi i + w n * p i := by
    unfold scalarEdge
    rw [sum_range_succ, Function.update_self]
    congr 1
    exact sum_congr rfl fun m hm => by rw [Function.update_of_ne (mem_range.mp hm).ne]
  have e2 : scalarCenter (n + 1) w (Function.update psi n p) i
      = scalarCenter n w psi i + w n * ((p i + p (i + 1)) / 2) := by
    unfold scalarCenter
    rw [sum_range_succ, Function.update_self]
    congr 1
    exact sum_congr rfl fun m hm => by rw [Function.update_of_ne (mem_range.mp hm).ne]
  rw [e1, e2]
  split <;> split <;> rfl

/-- One isotropic sweep solves the discrete equations with lagged scattering source. -/
theorem isotropicSweep_spec {N A : ℕ} (xsTotal xsScatter offScatter : ℕ → K)
    (external boundary : Arr2 K) (mm : ℕ → ℕ) (dx mu w : ℕ → K) (bcL bcR edges : Bool)
    (fluxOld : ℕ → K) (hne : ∀ n < A, mu n ≠ 0)
    (hphys : Physical N dx (fun i => xsTotal (mm i))) :
    ∃ flux psi, isotropicSweep N A xsTotal xsScatter offScatter external boundary mm dx mu w bcL bcR
        edges fluxOld = .ok flux ∧
      AllBalanced N A mu dx (fun i => xsTotal (mm i))
        (fun n i => xsScatter (mm i) * fluxOld i + external.val i (bidx external.angles n)
          + offScatter i) psi ∧
      SweptInflow N A mu bcL bcR (fun n => boundary.val 0 (bidx boundary.angles n))
        (fun n => boundary.val 1 (bidx boundary.angles n)) psi ∧
      Filled N A w edges psi flux := by
  unfold isotropicSweep
  simp only
  rw [angleLoop_ok _ _ _ _ _ _ _ _ _ hne]
  obtain ⟨psi, h1, h2, h3⟩ := sweep_spec A N mu bcL bcR
    (fun nn => boundary.val 0 (bidx boundary.angles nn))
    (fun nn => boundary.val 1 (bidx boundary.angles nn))
    (fun n p => CellBalance N (mu n) dx (fun i => xsTotal (mm i))
      (fun i => xsScatter (mm i) * fluxOld i + external.val i (bidx external.angles n) + offScatter i) p)
    (pureStep A mu bcL bcR (fun nn => boundary.val 0 (bidx boundary.angles nn))
      (fun nn => boundary.val 1 (bidx boundary.angles nn))
      (fun nn flux e => forwardIso N flux fluxOld xsTotal xsScatter offScatter
        (fun ii => external.val ii (bidx external.angles nn)) e mm dx (mu nn) (w nn) edges)
      (fun nn flux e => backwardIso N flux fluxOld xsTotal xsScatter offScatter
        (fun ii => external.val ii (bidx external.angles nn)) e mm dx (mu nn) (w nn) edges))
    (fun n psi flux => Filled N n w edges psi flux) (fun _ => 0) (fun _ _ => 0)
    (by intro i; simp [scalarEdge, scalarCenter])
    (by
      intro n hn psi s hacc
      obtain ⟨p, hp1, hp2, hp3, hp4⟩ := dir_spec (N := N) s.acc fluxOld xsTotal xsScatter offScatter
        (fun ii => external.val ii (bidx external.angles n))
        (s.reflector n + if 0 < mu n then boundary.val 0 (bidx boundary.angles n)
          else boundary.val 1 (bidx boundary.angles n)) mm dx (mu n) (w n) edges (hne n hn) hphys
      refine ⟨p, hp1, hp2, ?_, ?_⟩
      · refine filled_step w edges psi s.acc _ p hacc ?_
        intro i
        rw [← hp4 i]
        unfold pureStep
        by_cases h : 0 < mu n <;> simp [h]
      · rw [hp3]
        unfold pureStep
        by_cases h : 0 < mu n <;> simp [h])
  exact ⟨_, psi, rfl, h2, h3, h1⟩

/-- One sweep with a given scattering source (`slab_scatter_source_sn`). -/
theorem scatterSourceSn_spec {N A : ℕ} (xsTotal scatterSource : ℕ → K)
    (external boundary : Arr2 K) (mm : ℕ → ℕ) (dx mu w : ℕ → K) (bcL bcR : Bool)
    (hne : ∀ n < A, mu n ≠ 0) (hphys : Physical N dx (fun i => xsTotal (mm i))) :
    ∃ flux psi, scatterSourceSn N A xsTotal scatterSource external boundary mm dx mu w bcL bcR
        = .ok flux ∧
      AllBalanced N A mu dx (fun i => xsTotal (mm i))
        (fun n i => scatterSource i + external.val i (bidx external.angles n)) psi ∧
      SweptInflow N A mu bcL bcR (fun n => boundary.val 0 (bidx external.angles n))
        (fun n => boundary.val 1 (bidx external.angles n)) psi ∧
      Filled N A w false psi flux := by
  unfold scatterSourceSn
  simp only
  rw [angleLoop_ok _ _ _ _ _ _ _ _ _ hne]
  obtain ⟨psi, h1, h2, h3⟩ := sweep_spec A N mu bcL bcR
    (fun nn => boundary.val 0 (bidx external.angles nn))
    (fun nn => boundary.val 1 (bidx external.angles nn))
    (fun n p => CellBalance N (mu n) dx (fun i => xsTotal (mm i))
      (fun i => scatterSource i + external.val i (bidx external.angles n)) p)
    (pureStep A mu bcL bcR (fun nn => boundary.val 0 (bidx external.angles nn))
      (fun nn => boundary.val 1 (bidx external.angles nn))
      (fun nn flux e => forwardScatter N flux xsTotal scatterSource
        (fun ii => external.val ii (bidx external.angles nn)) e mm dx (mu nn) (w nn))
      (fun nn flux e => backwardScatter N flux xsTotal scatterSource
        (fun ii => external.val ii (bidx external.angles nn)) e mm dx (mu nn) (w nn)))
    (fun n psi flux => Filled N n w false psi flux) (fun _ => 0) (fun _ _ => 0)
    (by intro i; simp [scalarEdge, scalarCenter])
    (by
      intro n hn psi s hacc
      obtain ⟨p, hp1, hp2, hp3, hp4⟩ := dir_spec (N := N) s.acc (fun _ => 0) xsTotal (fun _ => 0)
        (fun _ => 0)
        (fun ii => scatterSource ii + external.val ii (bidx external.angles n))
        (s.reflector n + if 0 < mu n then boundary.val 0 (bidx external.angles n)
          else boundary.val 1 (bidx external.angles n)) mm dx (mu n) (w n) false (hne n hn) hphys
      refine ⟨p, by simpa using hp1, hp2, ?_, ?_⟩
      · refine filled_step w false psi s.acc _ p hacc ?_
        intro i
        rw [← hp4 i]
        unfold pureStep
        by_cases h : 0 < mu n <;> simp [h, forwardScatter_eq, backwardScatter_eq]
      · rw [hp3]
        unfold pureStep
        by_cases h : 0 < mu n <;> simp [h, forwardScatter_eq, backwardScatter_eq])
  exact ⟨_, psi, rfl, h2, h3, h1⟩

/-- One anisotropic sweep. -/
theorem anisotropicSweep_spec {N A L : ℕ} (xsTotal : ℕ → K) (xsW : ℕ → ℕ → K) (offScatter : ℕ → K)
    (external boundary : Arr2 K) (mm : ℕ → ℕ) (dx mu w : ℕ → K) (bcL bcR edges : Bool)
    (P PW : ℕ → ℕ → K) (old : (ℕ → K) × (ℕ → ℕ → K)) (hne : ∀ n < A, mu n ≠ 0)
    (hphys : Physical N dx (fun i => xsTotal (mm i))) :
    ∃ flux moments psi, anisotropicSweep N A L xsTotal xsW offScatter external boundary mm dx mu w
        bcL bcR edges P PW old = .ok (flux, moments) ∧
      AllBalanced N A mu dx (fun i => xsTotal (mm i))
        (fun n i => (∑ l ∈ range L, xsW i l * old.2 i l * P l n)
          + external.val i (bidx external.angles n) + offScatter i) psi ∧
      SweptInflow N A mu bcL bcR (fun n => boundary.val 0 (bidx boundary.angles n))
        (fun n => boundary.val 1 (bidx boundary.angles n)) psi ∧
      Filled N A w edges psi flux ∧
      ∀ i < N, ∀ l, moments i l = scalarCenter A (fun n => PW l n) psi i := by
  unfold anisotropicSweep
  simp only
  rw [angleLoop_ok _ _ _ _ _ _ _ _ _ hne]
  obtain ⟨psi, h1, h2, h3⟩ := sweep_spec (S := (ℕ → K) × (ℕ → ℕ → K)) A N mu bcL bcR
    (fun nn => boundary.val 0 (bidx boundary.angles nn))
    (fun nn => boundary.val 1 (bidx boundary.angles nn))
    (fun n p => CellBalance N (mu n) dx (fun i => xsTotal (mm i))
      (fun i => (∑ l ∈ range L, xsW i l * old.2 i l * P l n)
        + external.val i (bidx external.angles n) + offScatter i) p)
    (pureStep A mu bcL bcR (fun nn => boundary.val 0 (bidx boundary.angles nn))
      (fun nn => boundary.val 1 (bidx boundary.angles nn))
      (fun nn (s : (ℕ → K) × (ℕ → ℕ → K)) e =>
        let r := forwardAniso N s.1 xsTotal
          (fun ii => accum L fun l => xsW ii l * old.2 ii l * P l nn) offScatter
          (fun ii => external.val ii (bidx external.angles nn)) e mm dx (mu nn) (w nn) edges
        ((r.flux, fun ii l => s.2 ii l + r.psi ii * PW l nn), r.edge))
      (fun nn (s : (ℕ → K) × (ℕ → ℕ → K)) e =>
        let r := backwardAniso N s.1 xsTotal
          (fun ii => accum L fun l => xsW ii l * old.2 ii l * P l nn) offScatter
          (fun ii => external.val ii (bidx external.angles nn)) e mm dx (mu nn) (w nn) edges
        ((r.flux, fun ii l => s.2 ii l + r.psi ii * PW l nn), r.edge)))
    (fun n psi s => Filled N n w edges psi s.1 ∧
      ∀ i < N, ∀ l, s.2 i l = scalarCenter n (fun m => PW l m) psi i)
    ((fun _ => 0), (fun _ _ => 0)) (fun _ _ => 0)
    (by
      refine ⟨?_, ?_⟩
      · intro i; simp [scalarEdge, scalarCenter]
      · intro i _ l; simp [scalarCenter])
    (by
      intro n hn psi s hacc
      obtain ⟨hf, hm⟩ := hacc
      obtain ⟨a1, a2, a3⟩ := forwardAniso_eq N s.acc.1 xsTotal
          (fun ii => accum L fun l => xsW ii l * old.2 ii l * P l n) offScatter
          (fun ii => external.val ii (bidx external.angles n))
          (s.reflector n + boundary.val 0 (bidx boundary.angles n)) mm dx (mu n) (w n) edges
      obtain ⟨b1, b2, b3⟩ := backwardAniso_eq N s.acc.1 xsTotal
          (fun ii => accum L fun l => xsW ii l * old.2 ii l * P l n) offScatter
          (fun ii => external.val ii (bidx external.angles n))
          (s.reflector n + boundary.val 1 (bidx boundary.angles n)) mm dx (mu n) (w n) edges
      have mom : ∀ (p q : ℕ → K) (mnew : ℕ → ℕ → K), (∀ i < N, q i = (p i + p (i + 1)) / 2) →
          (∀ i l, mnew i l = s.acc.2 i l + q i * PW l n) →
          ∀ i < N, ∀ l, mnew i l = scalarCenter (n + 1) (fun m => PW l m) (Function.update psi n p) i := by
        intro p q mnew hq hmn i hi l
        rw [hmn, hm i hi l, hq i hi]
        unfold scalarCenter
        rw [sum_range_succ, Function.update_self, mul_comm ((p i + p (i + 1)) / 2)]
        congr 1
        exact sum_congr rfl fun m hm => by rw [Function.update_of_ne (mem_range.mp hm).ne]
      rcases lt_or_gt_of_ne (hne n hn) with h | h
      · have hn' : ¬ 0 < mu n := not_lt.mpr h.le
        obtain ⟨c1, c2⟩ := backwardIso_eq N s.acc.1 (fun _ => 0) xsTotal (fun _ => 0) offScatter
          (fun i => (accum L fun l => xsW i l * old.2 i l * P l n) +
            external.val i (bidx external.angles n))
          (s.reflector n + boundary.val 1 (bidx boundary.angles n)) mm dx (mu n) (w n) edges
        simp only [zero_mul, zero_add] at c1 c2
        refine ⟨bwdSol N (mu n) dx (fun i => xsTotal (mm i))
          (fun i => (accum L fun l => xsW i l * old.2 i l * P l n) +
            external.val i (bidx external.angles n) + offScatter i)
          (s.reflector n + boundary.val 1 (bidx boundary.angles n)), ?_, ?_,
          ⟨filled_step w edges psi s.acc.1 _ _ hf ?_, mom _ _ _ b3 ?_⟩, ?_⟩
        · have := bwdSol_balance (N := N) (mu := mu n) (dx := dx)
            (sigma := fun i => xsTotal (mm i))
            (q := fun i => (accum L fun l => xsW i l * old.2 i l * P l n) +
              external.val i (bidx external.angles n) + offScatter i)
            (s.reflector n + boundary.val 1 (bidx boundary.angles n))
            (fun i hi => (bwd_den_pos h (hphys i hi).1 (hphys i hi).2).ne')
          intro i hi
          refine (this i hi).trans ?_
          simp only [accum_eq_sum]
        · simp only [inflow, if_neg hn', bwdSol_top]
        · intro i
          rw [← c2 i]
          simp only [pureStep, if_neg hn']
          rw [b1]
        · intro i l
          simp only [pureStep, if_neg hn']
        · simp only [pureStep, if_neg hn', outflow]
          rw [b2, c1]
      · obtain ⟨c1, c2⟩ := forwardIso_eq N s.acc.1 (fun _ => 0) xsTotal (fun _ => 0) offScatter
          (fun i => (accum L fun l => xsW i l * old.2 i l * P l n) +
            external.val i (bidx external.angles n))
          (s.reflector n + boundary.val 0 (bidx boundary.angles n)) mm dx (mu n) (w n) edges
        simp only [zero_mul, zero_add] at c1 c2
        refine ⟨fwdSol (mu n) dx (fun i => xsTotal (mm i))
          (fun i => (accum L fun l => xsW i l * old.2 i l * P l n) +
            external.val i (bidx external.angles n) + offScatter i)
          (s.reflector n + boundary.val 0 (bidx boundary.angles n)), ?_, ?_,
          ⟨filled_step w edges psi s.acc.1 _ _ hf ?_, mom _ _ _ a3 ?_⟩, ?_⟩
        · have := fwdSol_balance (N := N) (mu := mu n) (dx := dx)
            (sigma := fun i => xsTotal (mm i))
            (q := fun i => (accum L fun l => xsW i l * old.2 i l * P l n) +
              external.val i (bidx external.angles n) + offScatter i)
            (s.reflector n + boundary.val 0 (bidx boundary.angles n))
            (fun i hi => (fwd_den_pos h (hphys i hi).1 (hphys i hi).2).ne')
          intro i hi
          refine (this i hi).trans ?_
          simp only [accum_eq_sum]
        · simp only [inflow, if_pos h, fwdSol]
        · intro i
          rw [← c2 i]
          simp only [pureStep, if_pos h]
          rw [a1]
        · intro i l
          simp only [pureStep, if_pos h]
        · simp only [pureStep, if_pos h, outflow]
          rw [a2, c1])
  exact ⟨_, _, psi, rfl, h2, h3, h1.1, h1.2⟩

/-- Known source, scalar output (`xdim = 1`): column 0 is the quadrature sum. -/
theorem knownSourceSn_scalar {N A : ℕ} (xsTotal : ℕ → K) (source boundary : Arr2 K)
    (mm : ℕ → ℕ) (dx mu w : ℕ → K) (bcL bcR edges : Bool) (hne : ∀ n < A, mu n ≠ 0)
    (hphys : Physical N dx (fun i => xsTotal (mm i))) :
    ∃ psi,
      AllBalanced N A mu dx (fun i => xsTotal (mm i))
        (fun n i => source.val i (bidx source.angles n)) psi ∧
      SweptInflow N A mu bcL bcR (fun n => boundary.val 0 (bidx boundary.angles n))
        (fun n => boundary.val 1 (bidx boundary.angles n)) psi ∧
      Filled N A w edges psi
        (fun i => knownSourceSn N A 1 xsTotal source boundary mm dx mu w bcL bcR edges
          (fun _ _ => 0) i 0) := by
  unfold knownSourceSn
  obtain ⟨psi, h1, h2, h3⟩ := sweep_spec A N mu bcL bcR
    (fun nn => boundary.val 0 (bidx boundary.angles nn))
    (fun nn => boundary.val 1 (bidx boundary.angles nn))
    (fun n p => CellBalance N (mu n) dx (fun i => xsTotal (mm i))
      (fun i => source.val i (bidx source.angles n)) p)
    (knownStep N A 1 xsTotal source boundary mm dx mu w bcL bcR edges)
    (fun n psi (flux : ℕ → ℕ → K) => Filled N n w edges psi (fun i => flux i 0))
    (fun _ _ => 0) (fun _ _ => 0)
    (by intro i; simp [scalarEdge, scalarCenter])
    (by
      intro n hn psi s hacc
      obtain ⟨p, hp1, hp2, hp3, hp4⟩ := dir_spec (N := N) (fun i => s.acc i 0) (fun _ => 0) xsTotal
        (fun _ => 0) (fun _ => 0)
        (fun ii => source.val ii (bidx source.angles n))
        (s.reflector n + if 0 < mu n then boundary.val 0 (bidx boundary.angles n)
          else boundary.val 1 (bidx boundary.angles n)) mm dx (mu n) (w n) edges (hne n hn) hphys
      refine ⟨p, by simpa using hp1, hp2, ?_, ?_⟩
      · refine filled_step w edges psi (fun i => s.acc i 0) _ p hacc ?_
        intro i
        rw [← hp4 i]
        rcases lt_or_gt_of_ne (hne n hn) with h | h
        · have hn' : ¬ 0 < mu n := not_lt.mpr h.le
          simp only [knownStep, hn', h, false_and, true_and, if_false, if_true]
        · simp only [knownStep, h, true_and, if_true]
      · rw [hp3]
        rcases lt_or_gt_of_ne (hne n hn) with h | h
        · have hn' : ¬ 0 < mu n := not_lt.mpr h.le
          simp only [knownStep, hn', h, false_and, true_and, if_false, if_true]
        · simp only [knownStep, h, true_and, if_true])
  exact ⟨psi, h2, h3, h1⟩

/-- Known source, angular output (`xdim = A > 1`): column `n` is the angular flux itself. -/
theorem knownSourceSn_angular {N A : ℕ} (hA : 1 < A) (xsTotal : ℕ → K) (source boundary : Arr2 K)
    (mm : ℕ → ℕ) (dx mu w : ℕ → K) (bcL bcR edges : Bool) (hne : ∀ n < A, mu n ≠ 0)
    (hphys : Physical N dx (fun i => xsTotal (mm i))) :
    ∃ psi,
      AllBalanced N A mu dx (fun i => xsTotal (mm i))
        (fun n i => source.val i (bidx source.angles n)) psi ∧
      SweptInflow N A mu bcL bcR (fun n => boundary.val 0 (bidx boundary.angles n))
        (fun n => boundary.val 1 (bidx boundary.angles n)) psi ∧
      ∀ n < A, ∀ i, knownSourceSn N A A xsTotal source boundary mm dx mu w bcL bcR edges
          (fun _ _ => 0) i n =
        if edges then (if i ≤ N then psi n i else 0)
        else (if i < N then (psi n i + psi n (i + 1)) / 2 else 0) := by
  unfold knownSourceSn
  have hA1 : A ≠ 1 := by omega
  obtain ⟨psi, h1, h2, h3⟩ := sweep_spec A N mu bcL bcR
    (fun nn => boundary.val 0 (bidx boundary.angles nn))
    (fun nn => boundary.val 1 (bidx boundary.angles nn))
    (fun n p => CellBalance N (mu n) dx (fun i => xsTotal (mm i))
      (fun i => source.val i (bidx source.angles n)) p)
    (knownStep N A A xsTotal source boundary mm dx mu w bcL bcR edges)
    (fun n psi (flux : ℕ → ℕ → K) => ∀ m i, flux i m = if m < n then
      (if edges then (if i ≤ N then psi m i else 0)
        else (if i < N then (psi m i + psi m (i + 1)) / 2 else 0)) else 0)
    (fun _ _ => 0) (fun _ _ => 0)
    (by intro m i; simp)
    (by
      intro n hn psi s hacc
      obtain ⟨p, hp1, hp2, hp3, hp4⟩ := dir_spec (N := N) (fun i => s.acc i n) (fun _ => 0) xsTotal
        (fun _ => 0) (fun _ => 0)
        (fun ii => source.val ii (bidx source.angles n))
        (s.reflector n + if 0 < mu n then boundary.val 0 (bidx boundary.angles n)
          else boundary.val 1 (bidx boundary.angles n)) mm dx (mu n) 1 edges (hne n hn) hphys
      have fin : ∀ m i (v : K), v = (if m = n then
          (if edges then (if i ≤ N then s.acc i n + 1 * p i else s.acc i n)
          else (if i < N then s.acc i n + 1 * ((p i + p (i + 1)) / 2) else s.acc i n))
          else s.acc i m) → v = if m < n + 1 then
          (if edges then (if i ≤ N then (Function.update psi n p) m i else 0)
            else (if i < N then ((Function.update psi n p) m i + (Function.update psi n p) m (i + 1)) / 2
              else 0)) else 0 := by
        intro m i v hv
        rw [hv]
        rcases Nat.lt_trichotomy m n with h | h | h
        · have h1 : m ≠ n := by omega
          have h2 : m < n + 1 := by omega
          simp only [if_neg h1, if_pos h2, hacc m i, if_pos h, Function.update_of_ne h1]
        · subst h
          have hz : s.acc i m = 0 := by rw [hacc]; exact if_neg (lt_irrefl _)
          simp only [if_pos rfl, if_pos (Nat.lt_succ_self m), hz, Function.update_self, zero_add,
            one_mul, if_true]
        · have h1 : m ≠ n := by omega
          have h2 : ¬ m < n + 1 := by omega
          have h3 : ¬ m < n := by omega
          simp only [if_neg h1, if_neg h2, hacc m i, if_neg h3]
      refine ⟨p, by simpa using hp1, hp2, ?_, ?_⟩
      · intro m i
        apply fin
        rw [← hp4 i]
        rcases lt_or_gt_of_ne (hne n hn) with h | h
        · have hn' : ¬ 0 < mu n := not_lt.mpr h.le
          simp only [knownStep, hn', h, hA, hA1, false_and, true_and, and_false, if_false, if_true]
        · have hn' : ¬ mu n < 0 := not_lt.mpr h.le
          simp only [knownStep, hn', h, hA, hA1, false_and, true_and, and_false, if_false, if_true]
      · rw [hp3]
        rcases lt_or_gt_of_ne (hne n hn) with h | h
        · have hn' : ¬ 0 < mu n := not_lt.mpr h.le
          simp only [knownStep, hn', h, hA, hA1, false_and, true_and, and_false, if_false, if_true]
        · have hn' : ¬ mu n < 0 := not_lt.mpr h.le
          simp only [knownStep, hn', h, hA, hA1, false_and, true_and, and_false, if_false, if_true])
  refine ⟨psi, h2, h3, fun n hn i => ?_⟩
  have := h1 n i
  rw [if_pos hn] at this
  exact this

/-- Two sweeps in the same order with the same sources and boundary data have the same solution. -/
theorem swept_unique {N A : ℕ} {mu : ℕ → K} {dx sigma : ℕ → K} {q psi psi' : ℕ → ℕ → K}
    {bcL bcR : Bool} {bL bR : ℕ → K} (hne : ∀ n < A, mu n ≠ 0) (hphys : Physical N dx sigma)
    (h : AllBalanced N A mu dx sigma q psi) (h' : AllBalanced N A mu dx sigma q psi')
    (hin : SweptInflow N A mu bcL bcR bL bR psi) (hin' : SweptInflow N A mu bcL bcR bL bR psi') :
    ∀ n < A, ∀ i ≤ N, psi n i = psi' n i := by
  intro n
  induction n using Nat.strong_induction_on with
  | _ n ih =>
    intro hn i hi
    refine balance_unique hphys (hne n hn) (h n hn) (h' n hn) ?_ i hi
    rw [hin n hn, hin' n hn]
    congr 1
    by_cases hc : A - 1 - n < n
    · have he := ih (A - 1 - n) hc (by omega)
      unfold outflow
      rw [he N (le_refl _), he 0 (Nat.zero_le _)]
    · rw [if_neg (by tauto), if_neg (by tauto)]

end Discrete1.Slab
