import Verif.Props.Timed

/-!
# C70: the anisotropic solvers with one Legendre moment are the isotropic solvers
-/

set_option linter.unusedSectionVars false
set_option linter.unusedSimpArgs false

namespace Discrete1.Props

open Finset Discrete1.Tools Discrete1.Spec Discrete1.Slab Discrete1.MultiGroup Discrete1.Drivers

variable {K : Type*} [Field K] [LinearOrder K] [IsStrictOrderedRing K]

/-- Two iteration drivers in lockstep. -/
theorem iterateE_sim {α β ε : Type*} (f : β → α) (I : β → Prop) (sa : α → Except ε α)
    (sb : β → Except ε β) (ca : α → α → Bool) (cb : β → β → Bool)
    (hs : ∀ b, I b → sa (f b) = (sb b).map f) (hI : ∀ b b', I b → sb b = .ok b' → I b')
    (hc : ∀ b b', cb b' b = ca (f b') (f b)) (n : ℕ) (b : β) (hb : I b) :
    iterateE sa ca n (f b) = (iterateE sb cb n b).map f := by
  induction n generalizing b with
  | zero => exact hs b hb
  | succ n ih =>
    unfold iterateE
    rw [hs b hb]
    cases h : sb b with
    | error e => rfl
    | ok b' =>
      simp only [Except.map]
      rw [hc b b']
      by_cases hcc : ca (f b') (f b) = true
      · simp [hcc]
      · simp only [hcc, if_false, Bool.false_eq_true]
        exact ih b' (hI b b' hb h)

/-- Two raising loops in lockstep. -/
theorem loopE_sim {α β ε : Type*} (f : β → α) (I : β → Prop) (n : ℕ) (fa : ℕ → α → Except ε α)
    (fb : ℕ → β → Except ε β) (hs : ∀ i < n, ∀ b, I b → fa i (f b) = (fb i b).map f)
    (hI : ∀ i < n, ∀ b b', I b → fb i b = .ok b' → I b') (b : β) (hb : I b) :
    loopE n fa (f b) = (loopE n fb b).map f ∧ ∀ b', loopE n fb b = .ok b' → I b' := by
  induction n with
  | zero => exact ⟨rfl, fun b' h => by cases h; exact hb⟩
  | succ n ih =>
    obtain ⟨h1, h2⟩ := ih (fun i hi => hs i (Nat.lt_succ_of_lt hi)) (fun i hi => hI i (Nat.lt_succ_of_lt hi))
    rw [loopE_succ, loopE_succ, h1]
    cases h : loopE n fb b with
    | error e => exact ⟨rfl, fun b' h' => by cases h'⟩
    | ok b' =>
      exact ⟨hs n (Nat.lt_succ_self n) b' (h2 b' h),
        fun b'' h' => hI n (Nat.lt_succ_self n) b' b'' (h2 b' h) h'⟩

theorem forwardAniso_iso (N : ℕ) (flux fluxOld xsTotal xsScatter aniso off ext : ℕ → K) (e : K)
    (mm : ℕ → ℕ) (dx : ℕ → K) (mu w : K) (h : ∀ i, aniso i = xsScatter (mm i) * fluxOld i) :
    (forwardAniso N flux xsTotal aniso off ext e mm dx mu w false).flux
      = (forwardIso N flux fluxOld xsTotal xsScatter off ext e mm dx mu w false).1 ∧
    (forwardAniso N flux xsTotal aniso off ext e mm dx mu w false).edge
      = (forwardIso N flux fluxOld xsTotal xsScatter off ext e mm dx mu w false).2 ∧
    ∀ j, (forwardAniso N flux xsTotal aniso off ext e mm dx mu w false).flux j
      = flux j + w * (forwardAniso N flux xsTotal aniso off ext e mm dx mu w false).psi j := by
  unfold forwardAniso forwardIso
  simp only [Bool.false_eq_true, if_false]
  have key : ∀ n ≤ N, ∀ (sa : AnisoState K) (sb : (ℕ → K) × K),
      sa = loop n (fun ii (s : AnisoState K) =>
        { psi := setAt s.psi ii (1 / 2 * (s.edge + (aniso ii + ext ii + off ii
            + s.edge * (mu / dx ii - 1 / 2 * xsTotal (mm ii))) / (mu / dx ii + 1 / 2 * xsTotal (mm ii))))
          flux := addAt s.flux ii (1 / 2 * w * (s.edge + (aniso ii + ext ii + off ii
            + s.edge * (mu / dx ii - 1 / 2 * xsTotal (mm ii))) / (mu / dx ii + 1 / 2 * xsTotal (mm ii))))
          edge := (aniso ii + ext ii + off ii
            + s.edge * (mu / dx ii - 1 / 2 * xsTotal (mm ii))) / (mu / dx ii + 1 / 2 * xsTotal (mm ii)) })
        ⟨flux, fun _ => 0, e⟩ →
      sb = loop n (fun ii (s : (ℕ → K) × K) =>
        (addAt s.1 ii (1 / 2 * w * (s.2 + (xsScatter (mm ii) * fluxOld ii + ext ii + off ii
            + s.2 * (mu / dx ii - 1 / 2 * xsTotal (mm ii))) / (mu / dx ii + 1 / 2 * xsTotal (mm ii)))),
          (xsScatter (mm ii) * fluxOld ii + ext ii + off ii
            + s.2 * (mu / dx ii - 1 / 2 * xsTotal (mm ii))) / (mu / dx ii + 1 / 2 * xsTotal (mm ii))))
        (flux, e) →
      sa.flux = sb.1 ∧ sa.edge = sb.2 ∧ (∀ j, sa.flux j = flux j + w * sa.psi j) ∧
        ∀ j, n ≤ j → sa.psi j = 0 := by
    intro n
    induction n with
    | zero => intro _ sa sb ha hb; subst ha; subst hb; simp
    | succ n ih =>
      intro hn sa sb ha hb
      rw [loop_succ] at ha hb
      obtain ⟨h1, h2, h3, h4⟩ := ih (by omega) _ _ rfl rfl
      subst ha; subst hb
      simp only
      rw [← h1, ← h2, h n]
      refine ⟨rfl, rfl, fun j => ?_, fun j hj => ?_⟩
      · rw [addAt_apply, setAt_apply]
        by_cases hj : j = n
        · subst hj
          have h5 := h3 j
          rw [h4 j (le_refl _), mul_zero, add_zero] at h5
          simp only [if_true]
          rw [h5]; ring
        · simp only [hj, if_false]; exact h3 j
      · rw [setAt_of_ne _ _ (by omega)]; exact h4 j (by omega)
  obtain ⟨h1, h2, h3, _⟩ := key N (le_refl _) _ _ rfl rfl
  exact ⟨h1, h2, h3⟩

theorem backwardAniso_iso (N : ℕ) (flux fluxOld xsTotal xsScatter aniso off ext : ℕ → K) (e : K)
    (mm : ℕ → ℕ) (dx : ℕ → K) (mu w : K) (h : ∀ i, aniso i = xsScatter (mm i) * fluxOld i) :
    (backwardAniso N flux xsTotal aniso off ext e mm dx mu w false).flux
      = (backwardIso N flux fluxOld xsTotal xsScatter off ext e mm dx mu w false).1 ∧
    (backwardAniso N flux xsTotal aniso off ext e mm dx mu w false).edge
      = (backwardIso N flux fluxOld xsTotal xsScatter off ext e mm dx mu w false).2 ∧
    ∀ j, (backwardAniso N flux xsTotal aniso off ext e mm dx mu w false).flux j
      = flux j + w * (backwardAniso N flux xsTotal aniso off ext e mm dx mu w false).psi j := by
  unfold backwardAniso backwardIso
  simp only [Bool.false_eq_true, if_false]
  have key : ∀ n ≤ N, ∀ (s0 : AnisoState K) (f0 : (ℕ → K) × K), s0.flux = f0.1 → s0.edge = f0.2 →
      (∀ j, s0.flux j = flux j + w * s0.psi j) → (∀ j, j < n → s0.psi j = 0) →
      ∀ (sa : AnisoState K) (sb : (ℕ → K) × K),
      sa = loopDown n (fun ii (s : AnisoState K) =>
        { psi := setAt s.psi ii (1 / 2 * (s.edge + (aniso ii + ext ii + off ii
            + s.edge * (-mu / dx ii - 1 / 2 * xsTotal (mm ii))) / (-mu / dx ii + 1 / 2 * xsTotal (mm ii))))
          flux := addAt s.flux ii (1 / 2 * w * (s.edge + (aniso ii + ext ii + off ii
            + s.edge * (-mu / dx ii - 1 / 2 * xsTotal (mm ii))) / (-mu / dx ii + 1 / 2 * xsTotal (mm ii))))
          edge := (aniso ii + ext ii + off ii
            + s.edge * (-mu / dx ii - 1 / 2 * xsTotal (mm ii))) / (-mu / dx ii + 1 / 2 * xsTotal (mm ii)) })
        s0 →
      sb = loopDown n (fun ii (s : (ℕ → K) × K) =>
        (addAt s.1 ii (1 / 2 * w * (s.2 + (xsScatter (mm ii) * fluxOld ii + ext ii + off ii
            + s.2 * (-mu / dx ii - 1 / 2 * xsTotal (mm ii))) / (-mu / dx ii + 1 / 2 * xsTotal (mm ii)))),
          (xsScatter (mm ii) * fluxOld ii + ext ii + off ii
            + s.2 * (-mu / dx ii - 1 / 2 * xsTotal (mm ii))) / (-mu / dx ii + 1 / 2 * xsTotal (mm ii))))
        f0 →
      sa.flux = sb.1 ∧ sa.edge = sb.2 ∧ (∀ j, sa.flux j = flux j + w * sa.psi j) := by
    intro n
    induction n with
    | zero => intro _ s0 f0 h1 h2 h3 _ sa sb ha hb; subst ha; subst hb; exact ⟨h1, h2, h3⟩
    | succ n ih =>
      intro hn s0 f0 h1 h2 h3 h4 sa sb ha hb
      rw [loopDown_succ] at ha hb
      refine ih (by omega) _ _ ?_ ?_ ?_ ?_ _ _ ha hb
      · simp only; rw [h1, h2, h n]
      · simp only; rw [h2, h n]
      · intro j
        simp only
        rw [addAt_apply, setAt_apply]
        by_cases hj : j = n
        · subst hj
          have h5 := h3 j
          rw [h4 j (Nat.lt_succ_self j), mul_zero, add_zero] at h5
          simp only [if_true]
          rw [h5]; ring
        · simp only [hj, if_false]; exact h3 j
      · intro j hj
        simp only
        rw [setAt_of_ne _ _ (by omega)]; exact h4 j (by omega)
  obtain ⟨h1, h2, h3⟩ := key N (le_refl _) ⟨flux, fun _ => 0, e⟩ (flux, e) rfl rfl (by simp) (by simp)
    _ _ rfl rfl
  exact ⟨h1, h2, h3⟩

/-- The scalar flux is the zeroth moment. -/
def ZerothMoment (s : (ℕ → K) × (ℕ → ℕ → K)) : Prop := ∀ i, s.2 i 0 = s.1 i

theorem slab_sweep_one_moment (N A : ℕ) (xsTotal xsScatter off : ℕ → K) (xsW : ℕ → ℕ → K)
    (external boundary : Arr2 K) (mm : ℕ → ℕ) (dx mu w : ℕ → K) (bcL bcR : Bool) (P PW : ℕ → ℕ → K)
    (hW : ∀ i, xsW i 0 = xsScatter (mm i)) (hP : ∀ n, P 0 n = 1) (hPW : ∀ n, PW 0 n = w n)
    (old : (ℕ → K) × (ℕ → ℕ → K)) (hold : ZerothMoment old) :
    isotropicSweep N A xsTotal xsScatter off external boundary mm dx mu w bcL bcR false old.1
      = (anisotropicSweep N A 1 xsTotal xsW off external boundary mm dx mu w bcL bcR false P PW
          old).map Prod.fst ∧
    ∀ new, anisotropicSweep N A 1 xsTotal xsW off external boundary mm dx mu w bcL bcR false P PW old
      = .ok new → ZerothMoment new := by
  have hq : ∀ n i, accum 1 (fun l => xsW i l * old.2 i l * P l n) = xsScatter (mm i) * old.1 i := by
    intro n i
    simp only [accum_eq_sum, sum_range_one, hW, hold i, hP, mul_one]
  unfold isotropicSweep anisotropicSweep angleLoop
  simp only
  have hsim := loopE_sim
    (fun s : AngleState K ((ℕ → K) × (ℕ → ℕ → K)) => (⟨s.acc.1, s.reflector, s.edge⟩ : AngleState K (ℕ → K)))
    (fun s => ZerothMoment s.acc) A
    (fun nn (s : AngleState K (ℕ → K)) =>
      if 0 < mu nn then
        .ok ⟨(forwardIso N s.acc old.1 xsTotal xsScatter off
          (fun ii => external.val ii (bidx external.angles nn))
          (s.reflector nn + boundary.val 0 (bidx boundary.angles nn)) mm dx (mu nn) (w nn) false).1,
          reflectorCorrector A s.reflector mu (forwardIso N s.acc old.1 xsTotal xsScatter off
          (fun ii => external.val ii (bidx external.angles nn))
          (s.reflector nn + boundary.val 0 (bidx boundary.angles nn)) mm dx (mu nn) (w nn) false).2 nn
            bcL bcR,
          (forwardIso N s.acc old.1 xsTotal xsScatter off
          (fun ii => external.val ii (bidx external.angles nn))
          (s.reflector nn + boundary.val 0 (bidx boundary.angles nn)) mm dx (mu nn) (w nn) false).2⟩
      else if mu nn < 0 then
        .ok ⟨(backwardIso N s.acc old.1 xsTotal xsScatter off
          (fun ii => external.val ii (bidx external.angles nn))
          (s.reflector nn + boundary.val 1 (bidx boundary.angles nn)) mm dx (mu nn) (w nn) false).1,
          reflectorCorrector A s.reflector mu (backwardIso N s.acc old.1 xsTotal xsScatter off
          (fun ii => external.val ii (bidx external.angles nn))
          (s.reflector nn + boundary.val 1 (bidx boundary.angles nn)) mm dx (mu nn) (w nn) false).2 nn
            bcL bcR,
          (backwardIso N s.acc old.1 xsTotal xsScatter off
          (fun ii => external.val ii (bidx external.angles nn))
          (s.reflector nn + boundary.val 1 (bidx boundary.angles nn)) mm dx (mu nn) (w nn) false).2⟩
      else .error PyErr.discontinuity)
    (fun nn (s : AngleState K ((ℕ → K) × (ℕ → ℕ → K))) =>
      if 0 < mu nn then
        let r := forwardAniso N s.acc.1 xsTotal
          (fun ii => accum 1 fun l => xsW ii l * old.2 ii l * P l nn) off
          (fun ii => external.val ii (bidx external.angles nn))
          (s.reflector nn + boundary.val 0 (bidx boundary.angles nn)) mm dx (mu nn) (w nn) false
        .ok ⟨(r.flux, fun ii l => s.acc.2 ii l + r.psi ii * PW l nn),
          reflectorCorrector A s.reflector mu r.edge nn bcL bcR, r.edge⟩
      else if mu nn < 0 then
        let r := backwardAniso N s.acc.1 xsTotal
          (fun ii => accum 1 fun l => xsW ii l * old.2 ii l * P l nn) off
          (fun ii => external.val ii (bidx external.angles nn))
          (s.reflector nn + boundary.val 1 (bidx boundary.angles nn)) mm dx (mu nn) (w nn) false
        .ok ⟨(r.flux, fun ii l => s.acc.2 ii l + r.psi ii * PW l nn),
          reflectorCorrector A s.reflector mu r.edge nn bcL bcR, r.edge⟩
      else .error PyErr.discontinuity)
    (fun nn _ s _ => by
      simp only
      split_ifs with h1 h2
      · obtain ⟨e1, e2, _⟩ := forwardAniso_iso N s.acc.1 old.1 xsTotal xsScatter
          (fun ii => accum 1 fun l => xsW ii l * old.2 ii l * P l nn) off
          (fun ii => external.val ii (bidx external.angles nn))
          (s.reflector nn + boundary.val 0 (bidx boundary.angles nn)) mm dx (mu nn) (w nn) (hq nn)
        simp only [Except.map, e1, e2]
      · obtain ⟨e1, e2, _⟩ := backwardAniso_iso N s.acc.1 old.1 xsTotal xsScatter
          (fun ii => accum 1 fun l => xsW ii l * old.2 ii l * P l nn) off
          (fun ii => external.val ii (bidx external.angles nn))
          (s.reflector nn + boundary.val 1 (bidx boundary.angles nn)) mm dx (mu nn) (w nn) (hq nn)
        simp only [Except.map, e1, e2]
      · rfl)
    (fun nn _ s s' hs h => by
      simp only at h
      split_ifs at h with h1 h2
      · obtain ⟨_, _, e3⟩ := forwardAniso_iso N s.acc.1 old.1 xsTotal xsScatter
          (fun ii => accum 1 fun l => xsW ii l * old.2 ii l * P l nn) off
          (fun ii => external.val ii (bidx external.angles nn))
          (s.reflector nn + boundary.val 0 (bidx boundary.angles nn)) mm dx (mu nn) (w nn) (hq nn)
        cases h
        intro i
        simp only [hPW]
        rw [e3 i, hs i]; ring
      · obtain ⟨_, _, e3⟩ := backwardAniso_iso N s.acc.1 old.1 xsTotal xsScatter
          (fun ii => accum 1 fun l => xsW ii l * old.2 ii l * P l nn) off
          (fun ii => external.val ii (bidx external.angles nn))
          (s.reflector nn + boundary.val 1 (bidx boundary.angles nn)) mm dx (mu nn) (w nn) (hq nn)
        cases h
        intro i
        simp only [hPW]
        rw [e3 i, hs i]; ring)
    ⟨((fun _ => 0), (fun _ _ => 0)), fun _ => 0, 0⟩ (fun _ => rfl)
  obtain ⟨g1, g2⟩ := hsim
  constructor
  · refine (congrArg (Except.map AngleState.acc) g1).trans ?_
    generalize loopE A _ _ = x
    cases x <;> rfl
  · intro new h
    generalize hx : loopE A _ _ = x at h
    cases x with
    | error e => cases h
    | ok s =>
      cases h
      exact g2 s hx


theorem sphere_dir_flux (N : ℕ) (p : Sphere.DirInput K) (b : K) (flux half : ℕ → K) :
    (∀ j, (Sphere.forward N false p flux half).flux j
      = flux j + p.weight * (Sphere.forward N false p flux half).psi j) ∧
    (∀ j, (Sphere.backward N false p b flux half).flux j
      = flux j + p.weight * (Sphere.backward N false p b flux half).psi j) := by
  have hstep : ∀ (ii : ℕ) (c : K) (s : Sphere.DirState K), s.psi ii = 0 →
      (∀ j, s.flux j = flux j + p.weight * s.psi j) →
      ∀ j, (Sphere.cellUpdate p false ii c s).flux j
        = flux j + p.weight * (Sphere.cellUpdate p false ii c s).psi j := by
    intro ii c s h0 h j
    simp only [Sphere.cellUpdate, Bool.false_eq_true, if_false]
    rw [addAt_apply, setAt_apply]
    by_cases hj : j = ii
    · subst hj
      have := h j
      rw [h0, mul_zero, add_zero] at this
      simp only [if_true]; rw [this]
    · simp only [hj, if_false]; exact h j
  have hpsi : ∀ (ii : ℕ) (c : K) (s : Sphere.DirState K) (j : ℕ), j ≠ ii →
      (Sphere.cellUpdate p false ii c s).psi j = s.psi j := by
    intro ii c s j hj
    simp only [Sphere.cellUpdate]; rw [setAt_of_ne _ _ hj]
  constructor
  · have := loop_induction (fun n (s : Sphere.DirState K) =>
      (∀ j, s.flux j = flux j + p.weight * s.psi j) ∧ ∀ j, n ≤ j → s.psi j = 0) N
      (fun ii s => Sphere.cellUpdate p false ii (Sphere.centerForward p ii s.edge (s.half ii)) s)
      ⟨flux, half, fun _ => 0, half 0⟩ ⟨by simp, by simp⟩ (fun i _ s hs =>
        ⟨hstep i _ s (hs.2 i (le_refl _)) hs.1, fun j hj => by
          rw [hpsi i _ s j (by omega)]; exact hs.2 j (by omega)⟩)
    simpa [Sphere.forward] using this.1
  · have := loopDown_induction (fun n (s : Sphere.DirState K) =>
      (∀ j, s.flux j = flux j + p.weight * s.psi j) ∧ ∀ j, j < n → s.psi j = 0) N
      (fun ii s => Sphere.cellUpdate p false ii (Sphere.centerBackward p ii s.edge (s.half ii)) s)
      ⟨flux, half, fun _ => 0, b⟩ ⟨by simp, by simp⟩ (fun i _ s hs =>
        ⟨hstep i _ s (hs.2 i (by omega)) hs.1, fun j hj => by
          rw [hpsi i _ s j (by omega)]; exact hs.2 j (by omega)⟩)
    simpa [Sphere.backward] using this.1

theorem sphere_angleLoop_moments (N A : ℕ) (pi : K) (xsTotal : ℕ → K) (q : ℕ → ℕ → K) (inR : ℕ → K)
    (mm : ℕ → ℕ) (dx mu w : ℕ → K) (PW : ℕ → ℕ → K) (half0 : ℕ → K) (hPW : ∀ n, PW 0 n = w n) :
    (Sphere.angleLoop N A pi xsTotal q inR mm dx mu w false (fun _ _ => 0)
      (fun p b f h => Sphere.backward N false p b f h) half0).map Sphere.AngleState.flux
    = (Sphere.angleLoop N A pi xsTotal q inR mm dx mu w false PW
      (fun p b f h => Sphere.backward N false p b f h) half0).map Sphere.AngleState.flux ∧
    ∀ s, Sphere.angleLoop N A pi xsTotal q inR mm dx mu w false PW
      (fun p b f h => Sphere.backward N false p b f h) half0 = .ok s → ∀ i, s.moments i 0 = s.flux i := by
  unfold Sphere.angleLoop
  set fb := (fun nn (s : Sphere.AngleState K) =>
    let anglePlus := s.angleMinus + 2 * w nn
    let tau := (mu nn - s.angleMinus) / (anglePlus - s.angleMinus)
    let alphaPlus := Sphere.angleCoefCorrector s.alphaMinus (mu nn) (w nn) nn A
    let p : Sphere.DirInput K := ⟨pi, xsTotal, q nn, mm, dx, mu nn, w nn, w nn, tau, alphaPlus,
      s.alphaMinus⟩
    if 0 < mu nn then
      let r := Sphere.forward N false p s.flux s.half
      (.ok ⟨r.flux, fun ii l => s.moments ii l + r.psi ii * PW l nn, r.half, anglePlus, alphaPlus⟩ :
        Except PyErr (Sphere.AngleState K))
    else if mu nn < 0 then
      let r := Sphere.backward N false p (inR nn) s.flux s.half
      .ok ⟨r.flux, fun ii l => s.moments ii l + r.psi ii * PW l nn, r.half, anglePlus, alphaPlus⟩
    else .error .discontinuity) with hfb
  obtain ⟨g1, g2⟩ := loopE_sim
    (fun s : Sphere.AngleState K => (⟨s.flux, fun _ _ => 0, s.half, s.angleMinus, s.alphaMinus⟩ :
      Sphere.AngleState K))
    (fun s => ∀ i, s.moments i 0 = s.flux i) A
    (fun nn (s : Sphere.AngleState K) =>
      let anglePlus := s.angleMinus + 2 * w nn
      let tau := (mu nn - s.angleMinus) / (anglePlus - s.angleMinus)
      let alphaPlus := Sphere.angleCoefCorrector s.alphaMinus (mu nn) (w nn) nn A
      let p : Sphere.DirInput K := ⟨pi, xsTotal, q nn, mm, dx, mu nn, w nn, w nn, tau, alphaPlus,
        s.alphaMinus⟩
      if 0 < mu nn then
        let r := Sphere.forward N false p s.flux s.half
        (.ok ⟨r.flux, fun ii l => s.moments ii l + r.psi ii * (fun _ _ => 0 : ℕ → ℕ → K) l nn, r.half,
          anglePlus, alphaPlus⟩ : Except PyErr (Sphere.AngleState K))
      else if mu nn < 0 then
        let r := Sphere.backward N false p (inR nn) s.flux s.half
        .ok ⟨r.flux, fun ii l => s.moments ii l + r.psi ii * (fun _ _ => 0 : ℕ → ℕ → K) l nn, r.half,
          anglePlus, alphaPlus⟩
      else .error .discontinuity) fb
    (fun nn _ s _ => by
      simp only [hfb]
      split_ifs with h1 h2
      · simp [Except.map]
      · simp [Except.map]
      · rfl)
    (fun nn _ s s' hs h => by
      simp only [hfb] at h
      split_ifs at h with h1 h2
      · cases h
        intro i
        simp only [hPW]
        rw [hs i, (sphere_dir_flux N _ 0 s.flux s.half).1 i]; ring
      · cases h
        intro i
        simp only [hPW]
        rw [hs i, (sphere_dir_flux N _ (inR nn) s.flux s.half).2 i]; ring)
    ⟨fun _ => 0, fun _ _ => 0, half0, -1, 0⟩ (fun _ => rfl)
  refine ⟨(congrArg (Except.map Sphere.AngleState.flux) g1).trans ?_, g2⟩
  cases loopE A fb ⟨fun _ => 0, fun _ _ => 0, half0, -1, 0⟩ <;> rfl

theorem sphere_sweep_one_moment (N A : ℕ) (pi : K) (xsTotal xsScatter off self0 : ℕ → K)
    (xsW : ℕ → ℕ → K)
    (external boundary : Arr2 K) (mm : ℕ → ℕ) (dx mu w : ℕ → K) (P PW : ℕ → ℕ → K)
    (hW : ∀ i, xsW i 0 = xsScatter (mm i)) (h0 : ∀ i, self0 i = xsScatter (mm i))
    (hP : ∀ n, P 0 n = 1) (hPW : ∀ n, PW 0 n = w n)
    (old : (ℕ → K) × (ℕ → ℕ → K)) (hold : ZerothMoment old) :
    Sphere.isotropicSweep N A pi xsTotal xsScatter off external boundary mm dx mu w false old.1
      = (Sphere.anisotropicSweep N A 1 pi xsTotal self0 xsW off external boundary mm dx mu w false P PW
          old).map Prod.fst ∧
    ∀ new, Sphere.anisotropicSweep N A 1 pi xsTotal self0 xsW off external boundary mm dx mu w false P PW
      old = .ok new → ZerothMoment new := by
  have hq : ∀ n i, accum 1 (fun l => xsW i l * old.2 i l * P l n) = old.1 i * xsScatter (mm i) := by
    intro n i
    simp only [accum_eq_sum, sum_range_one, hW, hold i, hP, mul_one]
    ring
  unfold Sphere.isotropicSweep Sphere.anisotropicSweep
  simp only [hq, h0]
  obtain ⟨g1, g2⟩ := sphere_angleLoop_moments N A pi xsTotal
    (fun nn ii => external.val ii (bidx external.angles nn) + off ii + old.1 ii * xsScatter (mm ii))
    (fun nn => boundary.val 1 (bidx boundary.angles nn)) mm dx mu w PW
    (Sphere.halfAngle N xsTotal (fun ii => external.val ii 0 + off ii + xsScatter (mm ii) * old.1 ii)
      mm dx (boundary.val 1 0)) hPW
  constructor
  · rw [g1]
    cases Sphere.angleLoop N A pi xsTotal
      (fun nn ii => external.val ii (bidx external.angles nn) + off ii + old.1 ii * xsScatter (mm ii))
      (fun nn => boundary.val 1 (bidx boundary.angles nn)) mm dx mu w false PW
      (fun p b f h => Sphere.backward N false p b f h)
      (Sphere.halfAngle N xsTotal (fun ii => external.val ii 0 + off ii + xsScatter (mm ii) * old.1 ii)
        mm dx (boundary.val 1 0)) <;> rfl
  · intro new h
    generalize hx : Sphere.angleLoop N A pi xsTotal
      (fun nn ii => external.val ii (bidx external.angles nn) + off ii + old.1 ii * xsScatter (mm ii))
      (fun nn => boundary.val 1 (bidx boundary.angles nn)) mm dx mu w false PW
      (fun p b f h => Sphere.backward N false p b f h)
      (Sphere.halfAngle N xsTotal (fun ii => external.val ii 0 + off ii + xsScatter (mm ii) * old.1 ii)
        mm dx (boundary.val 1 0)) = x at h
    cases x with
    | error e => cases h
    | ok s => cases h; exact g2 s hx

theorem groupStep_one_moment (p : Problem K) (xsTotal : ℕ → ℕ → K) (xs : ℕ → ℕ → ℕ → ℕ → K)
    (external boundary : Arr3 K) (fluxOld : ℕ → ℕ → K) (g : ℕ) (flux : ℕ → ℕ → K) :
    groupStepAniso p 1 xsTotal xs external boundary (fun l nn => legendre (p.angleX nn) l)
      (fun l nn => p.angleW nn * legendre (p.angleX nn) l) fluxOld g flux
    = groupStepIso p xsTotal (fun m o i => xs m o i 0) external boundary fluxOld g flux := by
  unfold groupStepAniso groupStepIso
  simp only
  split_ifs with h1 h2
  · congr 1
    unfold Slab.anisotropicSn Slab.isotropicSn
    refine (iterateE_sim Prod.fst ZerothMoment _ _ p.convIn _
      (fun b hb => (slab_sweep_one_moment p.cells p.angles (fun m => xsTotal m g)
        (fun m => xs m g g 0) _ _ _ _ p.mm p.dx p.angleX p.angleW p.bcL p.bcR _ _ ?_ ?_ ?_ b hb).1)
      (fun b b' hb h => (slab_sweep_one_moment p.cells p.angles (fun m => xsTotal m g)
        (fun m => xs m g g 0) _ _ _ _ p.mm p.dx p.angleX p.angleW p.bcL p.bcR _ _ ?_ ?_ ?_ b hb).2 b' h)
      (fun b b' => rfl) 99 (fun i => fluxOld i g, fun ii l => if l = 0 then fluxOld ii g else 0)
      (fun i => by simp)).symm
    all_goals intro i; simp [legendre]
  · congr 1
    unfold Sphere.anisotropicSn Sphere.isotropicSn
    refine (iterateE_sim Prod.fst ZerothMoment _ _ p.convIn _
      (fun b hb => (sphere_sweep_one_moment p.cells p.angles p.pi (fun m => xsTotal m g)
        (fun m => xs m g g 0) _ _ _ _ _ p.mm p.dx p.angleX p.angleW _ _ ?_ ?_ ?_ ?_ b hb).1)
      (fun b b' hb h => (sphere_sweep_one_moment p.cells p.angles p.pi (fun m => xsTotal m g)
        (fun m => xs m g g 0) _ _ _ _ _ p.mm p.dx p.angleX p.angleW _ _ ?_ ?_ ?_ ?_ b hb).2 b' h)
      (fun b b' => rfl) 99 (fun i => fluxOld i g, fun ii l => if l = 0 then fluxOld ii g else 0)
      (fun i => by simp)).symm
    all_goals intro i; simp [legendre]
  · rfl

/-- C70: source iteration with a four-dimensional scattering array holding a single Legendre moment
returns exactly what it returns for the three-dimensional array of zeroth moments - same flux, same
exceptions, slab or sphere, for every convergence criterion. -/
theorem C70_one_moment (p : Problem K) (xsTotal : ℕ → ℕ → K) (xs : ℕ → ℕ → ℕ → ℕ → K)
    (external boundary : Arr3 K) (fluxOld : ℕ → ℕ → K) :
    sourceIteration p xsTotal (.aniso 1 xs) external boundary fluxOld
      = sourceIteration p xsTotal (.iso fun m o i => xs m o i 0) external boundary fluxOld := by
  unfold sourceIteration
  simp only
  unfold sourceIterationAniso sourceIterationIso
  congr 1
  funext old
  unfold oneSweepAniso oneSweepIso
  congr 1
  funext g flux
  exact groupStep_one_moment p xsTotal xs external boundary old g flux

/-- C70 for the known-source right-hand side: with one moment `_source_total_aniso` builds the same
source as `_source_total`. -/
theorem C70_source_total (groups : ℕ) (flux : ℕ → ℕ → K) (xs : ℕ → ℕ → ℕ → ℕ → K) (mm : ℕ → ℕ)
    (external : Arr3 K) (mu : ℕ → K) :
    sourceTotalAniso groups 1 flux xs mm external (fun l n => legendre (mu n) l)
      = sourceTotal groups flux (fun m o i => xs m o i 0) mm external := by
  funext ii nn og
  simp only [sourceTotalAniso, sourceTotal, accum_eq_sum, sum_range_one, legendre, if_true,
    Nat.cast_zero, mul_zero, zero_add, one_mul, mul_one]
  congr 1
  exact sum_congr rfl fun _ _ => by ring

/-- Non-vacuity: the two-group example problem has a converged or capped result on both sides. -/
example : ∃ f, sourceIteration exProblem exTotal (.aniso 1 fun _ _ _ _ => (1 / 10 : ℚ))
    ⟨1, 1, fun _ _ _ => 1⟩ ⟨1, 1, fun _ _ _ => 0⟩ (fun _ _ => 0) = .ok f := by
  rw [C70_one_moment]
  obtain ⟨f, n, _, _, _, _, hf, _⟩ := C21_source_iteration_stops exProblem exTotal
    (fun _ _ _ => 1 / 10) ⟨1, 1, fun _ _ _ => 1⟩ ⟨1, 1, fun _ _ _ => 0⟩ (fun _ _ => 0) (fun g _ => exOk g)
  exact ⟨f n, hf⟩

end Discrete1.Props
