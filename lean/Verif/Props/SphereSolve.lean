import Verif.Props.Sphere
import Verif.Props.Similar

/-!
# C190, C191: source iteration in spheres

The spherical scheme determines the flux, depends linearly on the sources, and the source iteration solves the coupled
multigroup equations wherever it comes to rest.
-/

set_option linter.unusedSectionVars false
set_option linter.unusedSimpArgs false

namespace Discrete1.Props

open Finset Discrete1.Spec Discrete1.Slab Discrete1.Tools Discrete1.MultiGroup

section General

variable {K : Type} [Field K] [LinearOrder K] [IsStrictOrderedRing K]

/-! ## The scheme is linear and determines its solution -/

theorem scheme_combine {N A : ℕ} {A1 A2 V mu w sigma dx : ℕ → K} (a b : K)
    {q q' : ℕ → ℕ → K} {q0 q0' : ℕ → K} {b0 b0' : K} {inR inR' : ℕ → K} {psi c h psi' c' h' : ℕ → ℕ → K} {e0 e0' : ℕ → K}
    (s : SphereScheme N A A1 A2 V mu w sigma dx q q0 b0 inR psi c h e0)
    (s' : SphereScheme N A A1 A2 V mu w sigma dx q' q0' b0' inR' psi' c' h' e0') :
    SphereScheme N A A1 A2 V mu w sigma dx (fun n i => a * q n i + b * q' n i) (fun i => a * q0 i + b * q0' i)
      (a * b0 + b * b0') (fun n => a * inR n + b * inR' n) (fun n i => a * psi n i + b * psi' n i)
      (fun n i => a * c n i + b * c' n i) (fun n i => a * h n i + b * h' n i) (fun i => a * e0 i + b * e0' i) where
  start i hi := by
    have h1 := s.start i hi
    have h2 := s'.start i hi
    linear_combination a * h1 + b * h2
  startIn := by
    have h1 := s.startIn
    have h2 := s'.startIn
    linear_combination a * h1 + b * h2
  startHalf i hi := by
    have h1 := s.startHalf i hi
    have h2 := s'.startHalf i hi
    linear_combination a * h1 + b * h2
  balance n hn i hi := by
    have h1 := s.balance n hn i hi
    have h2 := s'.balance n hn i hi
    unfold SphereBalance at *
    linear_combination a * h1 + b * h2
  diamond n hn i hi := by
    have h1 := s.diamond n hn i hi
    have h2 := s'.diamond n hn i hi
    linear_combination a * h1 + b * h2
  inward n hn hmu := by
    have h1 := s.inward n hn hmu
    have h2 := s'.inward n hn hmu
    linear_combination a * h1 + b * h2
  outward n hn hmu := by
    have h1 := s.outward n hn hmu
    have h2 := s'.outward n hn hmu
    linear_combination a * h1 + b * h2
  angular n hn i hi := by
    have h1 := s.angular n hn i hi
    have h2 := s'.angular n hn i hi
    by_cases h0 : i = 0
    · rw [if_pos h0] at h1 h2 ⊢
      linear_combination a * h1 + b * h2
    · rw [if_neg h0] at h1 h2 ⊢
      linear_combination a * h1 + b * h2

/-- Without sources and entering flux the cell fluxes vanish. -/
theorem scheme_zero {N A : ℕ} {pi : K} {mu w sigma dx : ℕ → K} (hm : SphereMesh N pi sigma dx)
    (hquad : AscendingQuadrature A mu w)
    {q : ℕ → ℕ → K} {q0 : ℕ → K} {b0 : K} {inR : ℕ → K} {psi c h : ℕ → ℕ → K} {e0 : ℕ → K}
    (s : SphereScheme N A (Sphere.area1 pi dx) (Sphere.area2 pi dx) (Sphere.volume pi dx) mu w sigma dx q q0 b0 inR
      psi c h e0)
    (hq : ∀ n < A, ∀ i < N, q n i = 0) (hq0 : ∀ i < N, q0 i = 0) (hb0 : b0 = 0) (hin : ∀ n < A, inR n = 0) :
    ∀ n < A, ∀ i < N, c n i = 0 := by
  have he : ∀ i ≤ N, e0 i = 0 := by
    refine Slab.balance_unique (psi' := fun _ => 0) (fun i hi => ⟨hm.dx_pos i hi, hm.sigma_nonneg i hi⟩)
      (neg_ne_zero.mpr one_ne_zero) s.start (fun i hi => by rw [hq0 i hi]; simp) ?_
    have hn : ¬ (0 : K) < -1 := by linarith [one_pos (α := K)]
    simp only [inflow, if_neg hn, s.startIn, hb0]
  -- one ordinate
  have step : ∀ n < A, (∀ i < N, h n i = 0) → ∀ i < N, c n i = 0 := by
    intro n hn hh
    rcases lt_or_gt_of_ne (hquad.sym.nonzero n hn) with hneg | hpos
    · have key : ∀ k ≤ N, psi n (N - k) = 0 ∧ (0 < k → c n (N - k) = 0) := by
        intro k
        induction k with
        | zero => intro _; exact ⟨by rw [Nat.sub_zero, s.inward n hn hneg, hin n hn], fun h => absurd h (lt_irrefl _)⟩
        | succ k ih =>
          intro hk
          have hi : N - (k + 1) < N := by omega
          have hb := s.balance n hn _ hi
          have hd := s.diamond n hn _ hi
          have hden := backward_den_pos hm hquad n hn hneg _ hi
          have h0 := (ih (by omega)).1
          rw [show N - (k + 1) + 1 = N - k by omega, h0] at hb hd
          rw [hh _ hi, hq n hn _ hi] at hb
          unfold SphereBalance at hb
          have hc : c n (N - (k + 1)) = 0 := by
            have : c n (N - (k + 1)) * (2 * -mu n * Sphere.area1 pi dx (N - (k + 1))
              + 2 / w n * (Sphere.area2 pi dx (N - (k + 1)) - Sphere.area1 pi dx (N - (k + 1))) * alpha mu w (n + 1)
              + sigma (N - (k + 1)) * Sphere.volume pi dx (N - (k + 1))) = 0 := by
              linear_combination hb + mu n * Sphere.area1 pi dx (N - (k + 1)) * hd
            exact (mul_eq_zero.mp this).resolve_right hden.ne'
          exact ⟨by rw [hc] at hd; linear_combination hd, fun _ => hc⟩
      intro i hi
      have := (key (N - i) (by omega)).2 (by omega)
      rwa [show N - (N - i) = i by omega] at this
    · have key : ∀ i ≤ N, (i < N ∨ 0 < i → psi n i = 0) ∧ (∀ j < i, c n j = 0) := by
        intro i
        induction i with
        | zero =>
          intro _
          refine ⟨fun h0 => ?_, fun j hj => absurd hj (Nat.not_lt_zero _)⟩
          have hN : 0 < N := by rcases h0 with h | h <;> omega
          rw [s.outward n hn hpos, hh 0 hN]
        | succ i ih =>
          intro hi
          have hi' : i < N := by omega
          obtain ⟨p1, p2⟩ := ih (by omega)
          have p3 := p1 (Or.inl hi')
          have hb := s.balance n hn i hi'
          have hd := s.diamond n hn i hi'
          have hden := forward_den_pos hm hquad n hn hpos i hi'
          rw [p3] at hb hd
          rw [hh i hi', hq n hn i hi'] at hb
          unfold SphereBalance at hb
          have hc : c n i = 0 := by
            have : c n i * (2 * mu n * Sphere.area2 pi dx i
              + 2 / w n * (Sphere.area2 pi dx i - Sphere.area1 pi dx i) * alpha mu w (n + 1)
              + sigma i * Sphere.volume pi dx i) = 0 := by
              linear_combination hb - mu n * Sphere.area2 pi dx i * hd
            exact (mul_eq_zero.mp this).resolve_right hden.ne'
          refine ⟨fun _ => by rw [hc] at hd; linear_combination hd, fun j hj => ?_⟩
          rcases Nat.lt_succ_iff_lt_or_eq.mp hj with h | h
          · exact p2 j h
          · rw [h]; exact hc
      intro i hi
      exact (key N le_rfl).2 i hi
  have half : ∀ n ≤ A, ∀ i < N, h n i = 0 := by
    intro n
    induction n with
    | zero =>
      intro _ i hi
      rw [s.startHalf i hi, he i hi.le, he (i + 1) hi]
      simp
    | succ n ih =>
      intro hn i hi
      have h0 := ih (by omega)
      rw [s.angular n hn i hi, h0 i hi, step n hn h0 i hi]
      simp
  exact fun n hn => step n hn (half n hn.le)

/-- `f` is the scalar flux of the spherical scheme with cell sources `q` (`q0` for the starting direction) and entering
fluxes `inR` (`b0` for the starting direction). -/
def SphereFlux (N A : ℕ) (pi : K) (mu w sigma dx : ℕ → K) (q : ℕ → ℕ → K) (q0 : ℕ → K) (b0 : K) (inR : ℕ → K)
    (f : ℕ → K) : Prop :=
  ∃ (psi c h : ℕ → ℕ → K) (e0 : ℕ → K),
    SphereScheme N A (Sphere.area1 pi dx) (Sphere.area2 pi dx) (Sphere.volume pi dx) mu w sigma dx q q0 b0 inR psi c h e0 ∧
    ∀ i < N, f i = ∑ n ∈ range A, w n * c n i

theorem sphereFlux_combine {N A : ℕ} {pi : K} {mu w sigma dx : ℕ → K} (a b : K)
    {q q' : ℕ → ℕ → K} {q0 q0' : ℕ → K} {b0 b0' : K} {inR inR' f f' : ℕ → K}
    (h : SphereFlux N A pi mu w sigma dx q q0 b0 inR f) (h' : SphereFlux N A pi mu w sigma dx q' q0' b0' inR' f') :
    SphereFlux N A pi mu w sigma dx (fun n i => a * q n i + b * q' n i) (fun i => a * q0 i + b * q0' i)
      (a * b0 + b * b0') (fun n => a * inR n + b * inR' n) (fun i => a * f i + b * f' i) := by
  obtain ⟨psi, c, hh, e0, s, hf⟩ := h
  obtain ⟨psi', c', hh', e0', s', hf'⟩ := h'
  refine ⟨_, _, _, _, scheme_combine a b s s', fun i hi => ?_⟩
  beta_reduce
  rw [hf i hi, hf' i hi, mul_sum, mul_sum, ← sum_add_distrib]
  exact sum_congr rfl fun n _ => by ring

/-- Equal data, equal flux. -/
theorem sphereFlux_unique {N A : ℕ} {pi : K} {mu w sigma dx : ℕ → K} (hm : SphereMesh N pi sigma dx)
    (hquad : AscendingQuadrature A mu w)
    {q q' : ℕ → ℕ → K} {q0 q0' : ℕ → K} {b0 b0' : K} {inR inR' f f' : ℕ → K}
    (h : SphereFlux N A pi mu w sigma dx q q0 b0 inR f) (h' : SphereFlux N A pi mu w sigma dx q' q0' b0' inR' f')
    (hq : ∀ n < A, ∀ i < N, q n i = q' n i) (hq0 : ∀ i < N, q0 i = q0' i) (hb0 : b0 = b0')
    (hin : ∀ n < A, inR n = inR' n) : ∀ i < N, f i = f' i := by
  obtain ⟨psi, c, hh, e0, s, hf⟩ := sphereFlux_combine 1 (-1) h h'
  have := scheme_zero hm hquad s (fun n hn i hi => by rw [hq n hn i hi]; ring) (fun i hi => by rw [hq0 i hi]; ring)
    (by rw [hb0]; ring) (fun n hn => by rw [hin n hn]; ring)
  intro i hi
  have e := hf i hi
  rw [sum_eq_zero fun n hn => by rw [this n (mem_range.mp hn) i hi, mul_zero]] at e
  linear_combination e

/-- One pass of the spherical solver, in these terms. -/
theorem sphere_sweep (N A : ℕ) (pi : K) (xsTotal xsScatter off : ℕ → K) (external boundary : Arr2 K)
    (mm : ℕ → ℕ) (dx mu w old : ℕ → K)
    (hm : SphereMesh N pi (fun i => xsTotal (mm i)) dx) (hq : AscendingQuadrature A mu w) :
    ∃ f, Sphere.isotropicSweep N A pi xsTotal xsScatter off external boundary mm dx mu w false old = .ok f ∧
      SphereFlux N A pi mu w (fun i => xsTotal (mm i)) dx
        (fun n i => external.val i (bidx external.angles n) + off i + old i * xsScatter (mm i))
        (fun i => external.val i 0 + off i + xsScatter (mm i) * old i) (boundary.val 1 0)
        (fun n => boundary.val 1 (bidx boundary.angles n)) f := by
  obtain ⟨f, psi, c, h, e0, h1, h2, h3⟩ := C44_sweep N A pi xsTotal xsScatter off external boundary mm dx mu w old hm hq
  exact ⟨f, h1, psi, c, h, e0, h2, h3⟩

/-! ## Several groups -/

/-- The standing assumptions on a spherical problem: positive shell widths, non-negative total cross sections, a
symmetric quadrature listed in ascending order. -/
structure SphereOk (p : Problem K) (xsTotal : ℕ → ℕ → K) : Prop where
  sphere : p.geometry = 2
  mesh : ∀ g < p.groups, SphereMesh p.cells p.pi (fun i => xsTotal (p.mm i) g) p.dx
  quad : AscendingQuadrature p.angles p.angleX p.angleW
  angles : 0 < p.angles

/-- `phi` solves the coupled multigroup equations in the sphere: in every group it is the scalar flux of the scheme whose
source is the external one plus all scattering of `phi`, whose starting direction sees the sources of the first
ordinate, plus a residual `res`. -/
def SolvesSphereUpTo (p : Problem K) (xsTotal : ℕ → ℕ → K) (xs : ℕ → ℕ → ℕ → K) (ext bnd : Arr3 K)
    (phi res : ℕ → ℕ → K) : Prop :=
  ∀ g < p.groups, SphereFlux p.cells p.angles p.pi p.angleX p.angleW (fun i => xsTotal (p.mm i) g) p.dx
    (fun n i => (∑ g' ∈ range p.groups, xs (p.mm i) g g' * phi i g') + sourceAt ext i n g + res i g)
    (fun i => (∑ g' ∈ range p.groups, xs (p.mm i) g g' * phi i g') + sourceAt ext i 0 g + res i g)
    (sourceAt bnd 1 0 g) (fun n => sourceAt bnd 1 n g) (fun i => phi i g)

/-- ... exactly. -/
def SolvesSphere (p : Problem K) (xsTotal : ℕ → ℕ → K) (xs : ℕ → ℕ → ℕ → K) (ext bnd : Arr3 K)
    (phi : ℕ → ℕ → K) : Prop := SolvesSphereUpTo p xsTotal xs ext bnd phi fun _ _ => 0

theorem sphereFlux_congr {N A : ℕ} {pi : K} {mu w sigma dx : ℕ → K} {q q' : ℕ → ℕ → K} {q0 q0' : ℕ → K} {b0 b0' : K}
    {inR inR' f f' : ℕ → K} (h : SphereFlux N A pi mu w sigma dx q q0 b0 inR f)
    (hq : ∀ n < A, ∀ i < N, q n i = q' n i) (hq0 : ∀ i < N, q0 i = q0' i) (hb0 : b0 = b0')
    (hin : ∀ n < A, inR n = inR' n) (hf : ∀ i < N, f i = f' i) :
    SphereFlux N A pi mu w sigma dx q' q0' b0' inR' f' := by
  obtain ⟨psi, c, hh, e0, s, hs⟩ := h
  refine ⟨psi, c, hh, e0, ⟨fun i hi => ?_, hb0 ▸ s.startIn, s.startHalf, fun n hn i hi => ?_, s.diamond,
    fun n hn hmu => ?_, s.outward, s.angular⟩, fun i hi => ?_⟩
  · rw [← hq0 i hi]; exact s.start i hi
  · have := s.balance n hn i hi
    rwa [hq n hn i hi] at this
  · rw [← hin n hn]; exact s.inward n hn hmu
  · rw [← hf i hi]; exact hs i hi

/-- One pass over one group, seen from the multigroup iteration. -/
theorem sphere_group_sweep (p : Problem K) (xsTotal : ℕ → ℕ → K) (xs : ℕ → ℕ → ℕ → K) (ext bnd : Arr3 K)
    (hok : SphereOk p xsTotal) (flux old : ℕ → ℕ → K) (a : ℕ → K) (g : ℕ) (hg : g < p.groups) :
    ∃ f, Sphere.isotropicSweep p.cells p.angles p.pi (fun m => xsTotal m g) (fun m => xs m g g)
        (offScatter p.groups flux old p.mm xs g) (ext.group (bidx ext.groups g)) (bnd.group (bidx bnd.groups g)) p.mm p.dx
        p.angleX p.angleW false a = .ok f ∧
      SphereFlux p.cells p.angles p.pi p.angleX p.angleW (fun i => xsTotal (p.mm i) g) p.dx
        (fun n i => (∑ og ∈ (range p.groups).erase g, xs (p.mm i) g og * (if og < g then flux i og else old i og))
          + sourceAt ext i n g + xs (p.mm i) g g * a i)
        (fun i => (∑ og ∈ (range p.groups).erase g, xs (p.mm i) g og * (if og < g then flux i og else old i og))
          + sourceAt ext i 0 g + xs (p.mm i) g g * a i)
        (sourceAt bnd 1 0 g) (fun n => sourceAt bnd 1 n g) f := by
  obtain ⟨f, h1, h2⟩ := sphere_sweep p.cells p.angles p.pi (fun m => xsTotal m g) (fun m => xs m g g)
    (offScatter p.groups flux old p.mm xs g) (ext.group (bidx ext.groups g)) (bnd.group (bidx bnd.groups g)) p.mm p.dx
    p.angleX p.angleW a (hok.mesh g hg) hok.quad
  refine ⟨f, h1, sphereFlux_congr h2 (fun n hn i hi => ?_) (fun i hi => ?_) ?_ (fun n hn => rfl) fun i hi => rfl⟩
  · rw [offScatter_eq _ _ _ _ _ hg]
    show ext.val i (bidx ext.angles n) (bidx ext.groups g) + _ + _ = _ + ext.val i (bidx ext.angles n) (bidx ext.groups g) + _
    ring
  · rw [offScatter_eq _ _ _ _ _ hg]
    have : sourceAt ext i 0 g = ext.val i 0 (bidx ext.groups g) := by
      unfold sourceAt; rw [ite_self]; rfl
    rw [this]
    show ext.val i 0 (bidx ext.groups g) + _ + _ = _
    ring
  · unfold sourceAt; rw [ite_self]; rfl

/-- The group step of a sphere. -/
theorem sphere_group_step (p : Problem K) (xsTotal : ℕ → ℕ → K) (xs : ℕ → ℕ → ℕ → K) (ext bnd : Arr3 K)
    (hok : SphereOk p xsTotal) (flux old : ℕ → ℕ → K) (g : ℕ) (hg : g < p.groups) :
    ∃ (new : ℕ → ℕ → K) (prev : ℕ → K) (sweeps : ℕ),
      groupStepIso p xsTotal xs ext bnd old g flux = .ok new ∧
      (∃ y, Run (Sphere.isotropicSweep p.cells p.angles p.pi (fun m => xsTotal m g) (fun m => xs m g g)
          (offScatter p.groups flux old p.mm xs g) (ext.group (bidx ext.groups g)) (bnd.group (bidx bnd.groups g)) p.mm p.dx
          p.angleX p.angleW false) p.convIn 100 (fun i => old i g) y sweeps ∧
        y sweeps = (fun i => new i g) ∧ y (sweeps - 1) = prev) ∧
      (∀ i g', g' ≠ g → new i g' = flux i g') ∧
      SphereFlux p.cells p.angles p.pi p.angleX p.angleW (fun i => xsTotal (p.mm i) g) p.dx
        (fun n i => (∑ og ∈ (range p.groups).erase g, xs (p.mm i) g og * (if og < g then flux i og else old i og))
          + sourceAt ext i n g + xs (p.mm i) g g * prev i)
        (fun i => (∑ og ∈ (range p.groups).erase g, xs (p.mm i) g og * (if og < g then flux i og else old i og))
          + sourceAt ext i 0 g + xs (p.mm i) g g * prev i)
        (sourceAt bnd 1 0 g) (fun n => sourceAt bnd 1 n g) (fun i => new i g) ∧
      (sweeps < 100 → p.convIn (fun i => new i g) prev = true) ∧
      (∀ P : (ℕ → K) → Prop, P (fun i => old i g) →
        (∀ a f, P a → SphereFlux p.cells p.angles p.pi p.angleX p.angleW (fun i => xsTotal (p.mm i) g) p.dx
          (fun n i => (∑ og ∈ (range p.groups).erase g, xs (p.mm i) g og * (if og < g then flux i og else old i og))
            + sourceAt ext i n g + xs (p.mm i) g g * a i)
          (fun i => (∑ og ∈ (range p.groups).erase g, xs (p.mm i) g og * (if og < g then flux i og else old i og))
            + sourceAt ext i 0 g + xs (p.mm i) g g * a i)
          (sourceAt bnd 1 0 g) (fun n => sourceAt bnd 1 n g) f → P f) → P prev ∧ P fun i => new i g) := by
  obtain ⟨sweep, hsweep⟩ : ∃ sweep : (ℕ → K) → Except PyErr (ℕ → K), sweep = Sphere.isotropicSweep p.cells p.angles p.pi
    (fun m => xsTotal m g) (fun m => xs m g g) (offScatter p.groups flux old p.mm xs g) (ext.group (bidx ext.groups g))
    (bnd.group (bidx bnd.groups g)) p.mm p.dx p.angleX p.angleW false := ⟨_, rfl⟩
  have hs := fun a => sphere_group_sweep p xsTotal xs ext bnd hok flux old a g hg
  rw [← hsweep] at hs
  obtain ⟨x, k, hk, hx0, hstep, _, he, hconv, hno⟩ := iterateE_spec sweep p.convIn (fun _ => True)
    (fun a _ => by obtain ⟨f, hf, _⟩ := hs a; exact ⟨f, hf, trivial⟩) 99 (fun i => old i g) trivial
  have hrun : groupStepIso p xsTotal xs ext bnd old g flux = .ok (putCol flux g (x (k + 1))) := by
    unfold groupStepIso
    rw [hok.sphere, if_neg (by norm_num), if_pos rfl]
    unfold Sphere.isotropicSn
    rw [← hsweep, he]
    rfl
  have hnew : ∀ j ≤ k, SphereFlux p.cells p.angles p.pi p.angleX p.angleW (fun i => xsTotal (p.mm i) g) p.dx
        (fun n i => (∑ og ∈ (range p.groups).erase g, xs (p.mm i) g og * (if og < g then flux i og else old i og))
          + sourceAt ext i n g + xs (p.mm i) g g * x j i)
        (fun i => (∑ og ∈ (range p.groups).erase g, xs (p.mm i) g og * (if og < g then flux i og else old i og))
          + sourceAt ext i 0 g + xs (p.mm i) g g * x j i)
        (sourceAt bnd 1 0 g) (fun n => sourceAt bnd 1 n g) (x (j + 1)) := by
    intro j hj
    obtain ⟨f, hf, hfl⟩ := hs (x j)
    rw [hstep j hj] at hf
    rw [Except.ok.inj hf]
    exact hfl
  have hcol : (fun i => putCol flux g (x (k + 1)) i g) = x (k + 1) := by
    funext i; simp [putCol]
  have hr : Run sweep p.convIn 100 (fun i => old i g) x (k + 1) := ⟨hx0, by omega, by omega, fun i hi => hstep i (by omega),
    fun h => hconv (by omega), fun i h1 h2 => by
      obtain ⟨i, rfl⟩ : ∃ m, i = m + 1 := ⟨i - 1, by omega⟩
      exact hno i (by omega)⟩
  rw [hsweep] at hr
  refine ⟨putCol flux g (x (k + 1)), x k, k + 1, hrun, ⟨x, hr, hcol.symm, rfl⟩, fun i g' hg' => by simp [putCol, hg'], ?_,
    ?_, ?_⟩
  · rw [hcol]; exact hnew k le_rfl
  · intro h
    rw [hcol]; exact hconv (by omega)
  · intro P hP0 hP
    have key : ∀ j ≤ k + 1, P (x j) := by
      intro j
      induction j with
      | zero => intro _; rw [hx0]; exact hP0
      | succ j ih => intro hj; exact hP _ _ (ih (by omega)) (hnew j (by omega))
    rw [hcol]
    exact ⟨key k (by omega), key (k + 1) le_rfl⟩

/-- The other groups of the source, and the group itself. -/
theorem scatter_split (G g : ℕ) (hg : g < G) (x : ℕ → K) :
    (∑ g' ∈ (range G).erase g, x g') + x g = ∑ g' ∈ range G, x g' := by
  rw [add_comm, add_sum_erase _ _ (mem_range.mpr hg)]

/-- C190: a solution is kept.  If the guess solves the spherical multigroup equations, `source_iteration` returns it,
whatever the convergence tests. -/
theorem C190_solution_kept (p : Problem K) (xsTotal : ℕ → ℕ → K) (xs : ℕ → ℕ → ℕ → K) (ext bnd : Arr3 K)
    (hok : SphereOk p xsTotal) (phi : ℕ → ℕ → K) (hphi : SolvesSphere p xsTotal xs ext bnd phi) :
    ∃ out, sourceIteration p xsTotal (.iso xs) ext bnd phi = .ok out ∧
      ∀ i < p.cells, ∀ g < p.groups, out i g = phi i g := by
  obtain ⟨x, k, _, _, _, hP, he, _⟩ := iterateE_spec (oneSweepIso p xsTotal xs ext bnd) p.convOut
    (fun f => ∀ i < p.cells, ∀ g < p.groups, f i g = phi i g) (fun old hold => by
      obtain ⟨f, h1, h2⟩ := loopE_inv (fun k (f : ℕ → ℕ → K) => ∀ i < p.cells, ∀ g < k, f i g = phi i g)
        p.groups (groupStepIso p xsTotal xs ext bnd old) (fun _ _ => 0)
        (fun _ _ g hg => absurd hg (Nat.not_lt_zero _)) (fun g hg f hf => by
          obtain ⟨new, prev, _, hn, _, hother, _, _, hinv⟩ := sphere_group_step p xsTotal xs ext bnd hok f old g hg
          refine ⟨new, hn, fun i hi g' hg' => ?_⟩
          have hcol := (hinv (fun a => ∀ i < p.cells, a i = phi i g) (fun i hi => hold i hi g hg)
            (fun a b ha hb => by
              have hsrc : ∀ i < p.cells, (∑ og ∈ (range p.groups).erase g, xs (p.mm i) g og
                  * (if og < g then f i og else old i og)) + xs (p.mm i) g g * a i
                  = ∑ g' ∈ range p.groups, xs (p.mm i) g g' * phi i g' := by
                intro i hi
                rw [ha i hi, ← scatter_split p.groups g hg]
                congr 1
                refine sum_congr rfl fun og hog => ?_
                have ho := mem_range.mp (mem_erase.mp hog).2
                split
                · next h => rw [hf i hi og h]
                · rw [hold i hi og ho]
              exact sphereFlux_unique (hok.mesh g hg) hok.quad hb (hphi g hg)
                (fun n _ i hi => by rw [← hsrc i hi]; ring) (fun i hi => by rw [← hsrc i hi]; ring) rfl
                (fun _ _ => rfl))).2
          rcases Nat.lt_succ_iff_lt_or_eq.mp hg' with h | h
          · rw [hother i g' (by omega)]; exact hf i hi g' h
          · subst h; exact hcol i hi)
      exact ⟨f, h1, fun i hi g hg => h2 i hi g hg⟩) 99 phi (fun _ _ _ _ => rfl)
  exact ⟨x (k + 1), he, hP _ le_rfl⟩

/-- What one outer pass computes. -/
theorem sphere_outer (p : Problem K) (xsTotal : ℕ → ℕ → K) (xs : ℕ → ℕ → ℕ → K) (ext bnd : Arr3 K)
    (hok : SphereOk p xsTotal) (old : ℕ → ℕ → K) :
    ∃ (new prev : ℕ → ℕ → K) (inner : ℕ → ℕ), oneSweepIso p xsTotal xs ext bnd old = .ok new ∧
      (∀ g < p.groups, ∃ y, Run (Sphere.isotropicSweep p.cells p.angles p.pi (fun m => xsTotal m g) (fun m => xs m g g)
          (offScatter p.groups new old p.mm xs g) (ext.group (bidx ext.groups g)) (bnd.group (bidx bnd.groups g)) p.mm p.dx
          p.angleX p.angleW false) p.convIn 100 (fun i => old i g) y (inner g) ∧
        y (inner g) = (fun i => new i g) ∧ y (inner g - 1) = fun i => prev i g) ∧
      (∀ g < p.groups, SphereFlux p.cells p.angles p.pi p.angleX p.angleW (fun i => xsTotal (p.mm i) g) p.dx
        (fun n i => (∑ og ∈ (range p.groups).erase g, xs (p.mm i) g og * (if og < g then new i og else old i og))
          + sourceAt ext i n g + xs (p.mm i) g g * prev i g)
        (fun i => (∑ og ∈ (range p.groups).erase g, xs (p.mm i) g og * (if og < g then new i og else old i og))
          + sourceAt ext i 0 g + xs (p.mm i) g g * prev i g)
        (sourceAt bnd 1 0 g) (fun n => sourceAt bnd 1 n g) (fun i => new i g)) ∧
      (∀ g < p.groups, inner g < 100 → p.convIn (fun i => new i g) (fun i => prev i g) = true) := by
  obtain ⟨new, h1, prev, inner, h2⟩ := loopE_inv (fun k (f : ℕ → ℕ → K) => ∃ (prev : ℕ → ℕ → K) (inner : ℕ → ℕ),
      ∀ g < k, (∃ y, Run (Sphere.isotropicSweep p.cells p.angles p.pi (fun m => xsTotal m g) (fun m => xs m g g)
          (offScatter p.groups f old p.mm xs g) (ext.group (bidx ext.groups g)) (bnd.group (bidx bnd.groups g)) p.mm p.dx
          p.angleX p.angleW false) p.convIn 100 (fun i => old i g) y (inner g) ∧
        y (inner g) = (fun i => f i g) ∧ y (inner g - 1) = fun i => prev i g) ∧ SphereFlux p.cells p.angles p.pi p.angleX p.angleW (fun i => xsTotal (p.mm i) g) p.dx
        (fun n i => (∑ og ∈ (range p.groups).erase g, xs (p.mm i) g og * (if og < g then f i og else old i og))
          + sourceAt ext i n g + xs (p.mm i) g g * prev i g)
        (fun i => (∑ og ∈ (range p.groups).erase g, xs (p.mm i) g og * (if og < g then f i og else old i og))
          + sourceAt ext i 0 g + xs (p.mm i) g g * prev i g)
        (sourceAt bnd 1 0 g) (fun n => sourceAt bnd 1 n g) (fun i => f i g) ∧
        (inner g < 100 → p.convIn (fun i => f i g) (fun i => prev i g) = true))
    p.groups (groupStepIso p xsTotal xs ext bnd old) (fun _ _ => 0)
    ⟨fun _ _ => 0, fun _ => 0, fun g hg => absurd hg (Nat.not_lt_zero _)⟩ (fun k hk f hf => by
      obtain ⟨prev, inner, hf⟩ := hf
      obtain ⟨new, pr, sw, hn, hsw, hother, hfl, hconv, _⟩ := sphere_group_step p xsTotal xs ext bnd hok f old k hk
      refine ⟨new, hn, fun i g => if g = k then pr i else prev i g, fun g => if g = k then sw else inner g, fun g hg => ?_⟩
      have hkeep : ∀ g' ≠ k, (fun i => new i g') = fun i => f i g' := fun g' hg' => funext fun i => hother i g' hg'
      have hoff : ∀ g ≤ k, ∀ i, (∑ og ∈ (range p.groups).erase g, xs (p.mm i) g og * (if og < g then new i og else old i og))
          = ∑ og ∈ (range p.groups).erase g, xs (p.mm i) g og * (if og < g then f i og else old i og) := by
        intro g hgk i
        refine sum_congr rfl fun og _ => ?_
        split
        · next h => rw [hother i og (by omega)]
        · rfl
      have hoff' : ∀ g ≤ k, offScatter p.groups new old p.mm xs g = offScatter p.groups f old p.mm xs g := by
        intro g hgk
        funext i
        rw [offScatter_eq _ _ _ _ _ (by omega), offScatter_eq _ _ _ _ _ (by omega)]
        exact hoff g hgk i
      rcases Nat.lt_succ_iff_lt_or_eq.mp hg with h | h
      · obtain ⟨a, b, c⟩ := hf g h
        have hne : g ≠ k := by omega
        simp only [if_neg hne, hoff g h.le, hoff' g h.le]
        rw [hkeep g hne]
        exact ⟨a, b, c⟩
      · subst h
        simp only [if_true, hoff g le_rfl, hoff' g le_rfl]
        exact ⟨hsw, hfl, hconv⟩)
  exact ⟨new, prev, inner, h1, fun g hg => (h2 g hg).1, fun g hg => (h2 g hg).2.1, fun g hg => (h2 g hg).2.2⟩

/-- A relative change below the tolerance, as a bound. -/
theorem rel_change {N : ℕ} (hN : 0 < N) {tol a b : K} (ht : 0 ≤ tol) (ha : a ≠ 0)
    (hle : ((a - b) / a / (N : K)) ^ 2 ≤ tol ^ 2) : |b - a| ≤ (N : K) * (tol * |a|) := by
  have hN' : (0 : K) < N := by exact_mod_cast hN
  have habs := abs_le_of_sq_le_sq hle ht
  have e : |b - a| = |(a - b) / a / (N : K)| * ((N : K) * |a|) := by
    rw [abs_div, abs_div, abs_of_pos hN', abs_sub_comm]
    have : |a| ≠ 0 := abs_ne_zero.mpr ha
    field_simp
  rw [e]
  calc |(a - b) / a / (N : K)| * ((N : K) * |a|) ≤ tol * ((N : K) * |a|) :=
        mul_le_mul_of_nonneg_right habs (mul_nonneg hN'.le (abs_nonneg _))
    _ = (N : K) * (tol * |a|) := by ring

theorem converged_residual {N : ℕ} {tol : K} (ht : 0 ≤ tol) {new old : ℕ → K}
    (h : fluxConverged N tol new old = true) : ∀ i < N, |old i - new i| ≤ (N : K) * (tol * |new i|) := by
  unfold fluxConverged at h
  rw [Bool.and_eq_true, decide_eq_true_eq, decide_eq_true_eq] at h
  obtain ⟨hz, hsum⟩ := h
  rw [accum_eq_sum] at hsum
  intro i hi
  refine rel_change (by omega) ht (hz i hi) (le_trans ?_ hsum.le)
  exact single_le_sum (f := fun i => ((new i - old i) / new i / (N : K)) ^ 2) (fun j _ => sq_nonneg _) (mem_range.mpr hi)

theorem converged2_residual {N G : ℕ} {tol : K} (ht : 0 ≤ tol) {new old : ℕ → ℕ → K}
    (h : fluxConverged2 N G tol new old = true) :
    ∀ i < N, ∀ g < G, |old i g - new i g| ≤ (N : K) * (tol * |new i g|) := by
  unfold fluxConverged2 at h
  rw [Bool.and_eq_true, decide_eq_true_eq, decide_eq_true_eq] at h
  obtain ⟨hz, hsum⟩ := h
  rw [accum_eq_sum] at hsum
  intro i hi g hg
  refine rel_change (by omega) ht (hz i hi g hg) (le_trans ?_ hsum.le)
  refine le_trans ?_ (single_le_sum (f := fun i => accum G fun g => ((new i g - old i g) / new i g / (N : K)) ^ 2)
    (fun j _ => by rw [accum_eq_sum]; exact sum_nonneg fun _ _ => sq_nonneg _) (mem_range.mpr hi))
  rw [accum_eq_sum]
  exact single_le_sum (f := fun g => ((new i g - old i g) / new i g / (N : K)) ^ 2) (fun j _ => sq_nonneg _)
    (mem_range.mpr hg)

/-- C190: the flux that `source_iteration` returns for a sphere solves the multigroup equations up to a residual; when
the iterations stopped by the tolerances the residual is a tolerance times the scattering sources of the flux. -/
theorem C190_returned_flux_residual (p : Problem K) (xsTotal : ℕ → ℕ → K) (xs : ℕ → ℕ → ℕ → K) (ext bnd : Arr3 K)
    (guess : ℕ → ℕ → K) (tolIn tolOut : K) (hin : 0 ≤ tolIn) (hout : 0 ≤ tolOut) (hok : SphereOk p xsTotal)
    (hci : p.convIn = fluxConverged p.cells tolIn) (hco : p.convOut = fluxConverged2 p.cells p.groups tolOut) :
    ∃ (x : ℕ → ℕ → ℕ → K) (outer : ℕ) (inner : ℕ → ℕ) (phi res : ℕ → ℕ → K),
      sourceIteration p xsTotal (.iso xs) ext bnd guess = .ok phi ∧ phi = x outer ∧
      Run (oneSweepIso p xsTotal xs ext bnd) p.convOut 100 guess x outer ∧
      (∀ g < p.groups, ∃ y, Run (Sphere.isotropicSweep p.cells p.angles p.pi (fun m => xsTotal m g) (fun m => xs m g g)
          (offScatter p.groups phi (x (outer - 1)) p.mm xs g) (ext.group (bidx ext.groups g)) (bnd.group (bidx bnd.groups g)) p.mm p.dx
          p.angleX p.angleW false) p.convIn 100 (fun i => x (outer - 1) i g) y (inner g) ∧
        y (inner g) = fun i => phi i g) ∧ SolvesSphereUpTo p xsTotal xs ext bnd phi res ∧
      (outer < 100 → (∀ g < p.groups, inner g < 100) → ∀ i < p.cells, ∀ g < p.groups,
        |res i g| ≤ (p.cells : K) * (tolIn * (|xs (p.mm i) g g| * |phi i g|)
          + tolOut * ∑ og ∈ Ico (g + 1) p.groups, |xs (p.mm i) g og| * |phi i og|)) := by
  obtain ⟨x, k, hk, hx0, hstep, _, he, hconv, hno⟩ := iterateE_spec (oneSweepIso p xsTotal xs ext bnd) p.convOut
    (fun _ => True) (fun a _ => by
      obtain ⟨f, _, _, hf, _⟩ := sphere_outer p xsTotal xs ext bnd hok a; exact ⟨f, hf, trivial⟩) 99 guess trivial
  obtain ⟨new, prev, inner, h1, h2, h3, h4⟩ := sphere_outer p xsTotal xs ext bnd hok (x k)
  have hnew : new = x (k + 1) := by
    have := hstep k le_rfl
    rw [h1] at this
    exact Except.ok.inj this
  subst hnew
  have hsplit : ∀ g < p.groups, (range p.groups).erase g = range g ∪ Ico (g + 1) p.groups := by
    intro g hg
    ext y
    simp only [mem_erase, mem_range, mem_union, mem_Ico]
    omega
  have hdisj : ∀ g, Disjoint (range g) (Ico (g + 1) p.groups) := by
    intro g
    rw [disjoint_left]
    intro y hy hz
    have := mem_range.mp hy
    have := (mem_Ico.mp hz).1
    omega
  -- the residual
  refine ⟨x, k + 1, inner, x (k + 1), fun i g => xs (p.mm i) g g * (prev i g - x (k + 1) i g)
    + ∑ og ∈ Ico (g + 1) p.groups, xs (p.mm i) g og * (x k i og - x (k + 1) i og), he, rfl,
    ⟨hx0, by omega, by omega, fun i hi => hstep i (by omega), fun h => hconv (by omega), fun i h1 h2 => by
      obtain ⟨i, rfl⟩ : ∃ m, i = m + 1 := ⟨i - 1, by omega⟩
      exact hno i (by omega)⟩,
    fun g hg => by obtain ⟨y, a, b, -⟩ := h2 g hg; exact ⟨y, a, b⟩, fun g hg => ?_, fun ho hi' i hi g hg => ?_⟩
  · have hsrc : ∀ i, (∑ og ∈ (range p.groups).erase g, xs (p.mm i) g og * (if og < g then x (k + 1) i og else x k i og))
          + xs (p.mm i) g g * prev i g
        = (∑ g' ∈ range p.groups, xs (p.mm i) g g' * x (k + 1) i g')
          + (xs (p.mm i) g g * (prev i g - x (k + 1) i g)
            + ∑ og ∈ Ico (g + 1) p.groups, xs (p.mm i) g og * (x k i og - x (k + 1) i og)) := by
      intro i
      rw [← scatter_split p.groups g hg (fun g' => xs (p.mm i) g g' * x (k + 1) i g'), hsplit g hg,
        sum_union (hdisj g), sum_union (hdisj g)]
      have e1 : ∑ og ∈ range g, xs (p.mm i) g og * (if og < g then x (k + 1) i og else x k i og)
          = ∑ og ∈ range g, xs (p.mm i) g og * x (k + 1) i og :=
        sum_congr rfl fun og h => by rw [if_pos (mem_range.mp h)]
      have e2 : ∑ og ∈ Ico (g + 1) p.groups, xs (p.mm i) g og * (if og < g then x (k + 1) i og else x k i og)
          = (∑ og ∈ Ico (g + 1) p.groups, xs (p.mm i) g og * x (k + 1) i og)
            + ∑ og ∈ Ico (g + 1) p.groups, xs (p.mm i) g og * (x k i og - x (k + 1) i og) := by
        rw [← sum_add_distrib]
        refine sum_congr rfl fun og h => ?_
        have := (mem_Ico.mp h).1
        rw [if_neg (by omega)]
        ring
      rw [e1, e2]
      ring
    refine sphereFlux_congr (h3 g hg) (fun n hn i hi => ?_) (fun i hi => ?_) rfl (fun _ _ => rfl) fun _ _ => rfl
    · linear_combination hsrc i
    · linear_combination hsrc i
  · have hpos : 0 < p.cells := by omega
    have hN : (0 : K) ≤ (p.cells : K) := Nat.cast_nonneg _
    have hinner : |prev i g - x (k + 1) i g| ≤ (p.cells : K) * tolIn * |x (k + 1) i g| := by
      have := h4 g hg (hi' g hg)
      rw [hci] at this
      rw [mul_assoc]
      exact converged_residual hin this i hi
    have houter : ∀ og < p.groups, |x k i og - x (k + 1) i og| ≤ (p.cells : K) * tolOut * |x (k + 1) i og| := by
      intro og hog
      have := hconv (by omega)
      rw [hco] at this
      rw [mul_assoc]
      exact converged2_residual hout this i hi og hog
    refine (abs_add_le _ _).trans ?_
    rw [mul_add]
    refine add_le_add ?_ ?_
    · rw [abs_mul]
      calc |xs (p.mm i) g g| * |prev i g - x (k + 1) i g|
          ≤ |xs (p.mm i) g g| * ((p.cells : K) * tolIn * |x (k + 1) i g|) :=
            mul_le_mul_of_nonneg_left hinner (abs_nonneg _)
        _ = _ := by ring
    · refine (abs_sum_le_sum_abs _ _).trans ?_
      rw [mul_sum, mul_sum]
      refine sum_le_sum fun og hog => ?_
      rw [abs_mul]
      calc |xs (p.mm i) g og| * |x k i og - x (k + 1) i og|
          ≤ |xs (p.mm i) g og| * ((p.cells : K) * tolOut * |x (k + 1) i og|) :=
            mul_le_mul_of_nonneg_left (houter og (mem_Ico.mp hog).2) (abs_nonneg _)
        _ = _ := by ring

/-- C190: without scattering into the same or a lower-numbered group the returned flux solves the equations exactly,
whatever the guess and the tests. -/
theorem C190_downscatter_exact (p : Problem K) (xsTotal : ℕ → ℕ → K) (xs : ℕ → ℕ → ℕ → K) (ext bnd : Arr3 K)
    (guess : ℕ → ℕ → K) (hok : SphereOk p xsTotal) (hdown : ∀ m g g', g ≤ g' → xs m g g' = 0) :
    ∃ phi, sourceIteration p xsTotal (.iso xs) ext bnd guess = .ok phi ∧ SolvesSphere p xsTotal xs ext bnd phi := by
  obtain ⟨x, k, _, _, hstep, _, he, _⟩ := iterateE_spec (oneSweepIso p xsTotal xs ext bnd) p.convOut
    (fun _ => True) (fun a _ => by
      obtain ⟨f, _, _, hf, _⟩ := sphere_outer p xsTotal xs ext bnd hok a; exact ⟨f, hf, trivial⟩) 99 guess trivial
  obtain ⟨new, prev, inner, h1, _, h3, _⟩ := sphere_outer p xsTotal xs ext bnd hok (x k)
  have hnew : new = x (k + 1) := by
    have := hstep k le_rfl
    rw [h1] at this
    exact Except.ok.inj this
  subst hnew
  refine ⟨x (k + 1), he, fun g hg => ?_⟩
  have hsrc : ∀ i, (∑ og ∈ (range p.groups).erase g, xs (p.mm i) g og * (if og < g then x (k + 1) i og else x k i og))
      = ∑ g' ∈ range p.groups, xs (p.mm i) g g' * x (k + 1) i g' := by
    intro i
    rw [← scatter_split p.groups g hg, hdown _ g g le_rfl, zero_mul, add_zero]
    refine sum_congr rfl fun og _ => ?_
    split
    · rfl
    · next h => rw [hdown _ g og (by omega), zero_mul, zero_mul]
  refine sphereFlux_congr (h3 g hg) (fun n hn i hi => ?_) (fun i hi => ?_) rfl (fun _ _ => rfl) fun _ _ => rfl
  · rw [hsrc i, hdown _ g g le_rfl]; ring
  · rw [hsrc i, hdown _ g g le_rfl]; ring

/-- C190: ... and that solution is the only one. -/
theorem C190_downscatter_unique (p : Problem K) (xsTotal : ℕ → ℕ → K) (xs : ℕ → ℕ → ℕ → K) (ext bnd : Arr3 K)
    (hok : SphereOk p xsTotal) (hdown : ∀ m g g', g ≤ g' → xs m g g' = 0) (phi phi' : ℕ → ℕ → K)
    (h : SolvesSphere p xsTotal xs ext bnd phi) (h' : SolvesSphere p xsTotal xs ext bnd phi') :
    ∀ g < p.groups, ∀ i < p.cells, phi i g = phi' i g := by
  intro g
  induction g using Nat.strong_induction_on with
  | _ g ih =>
    intro hg
    have hsrc : ∀ i < p.cells, (∑ g' ∈ range p.groups, xs (p.mm i) g g' * phi i g')
        = ∑ g' ∈ range p.groups, xs (p.mm i) g g' * phi' i g' := by
      intro i hi
      refine sum_congr rfl fun g' hg' => ?_
      by_cases hlt : g' < g
      · rw [ih g' hlt (mem_range.mp hg') i hi]
      · rw [hdown _ g g' (by omega), zero_mul, zero_mul]
    exact sphereFlux_unique (hok.mesh g hg) hok.quad (h g hg) (h' g hg)
      (fun n _ i hi => by rw [hsrc i hi]) (fun i hi => by rw [hsrc i hi]) rfl (fun _ _ => rfl)

/-- C190: solutions superpose.  The sources are given by their values. -/
theorem C190_superposition (p : Problem K) (xsTotal : ℕ → ℕ → K) (xs : ℕ → ℕ → ℕ → K) (a b : K)
    (ext ext' ext'' bnd bnd' bnd'' : Arr3 K) (phi phi' : ℕ → ℕ → K) (hA : 0 < p.angles)
    (he : ∀ i < p.cells, ∀ n < p.angles, ∀ g < p.groups,
      sourceAt ext'' i n g = a * sourceAt ext i n g + b * sourceAt ext' i n g)
    (hb : ∀ n < p.angles, ∀ g < p.groups, sourceAt bnd'' 1 n g = a * sourceAt bnd 1 n g + b * sourceAt bnd' 1 n g)
    (h : SolvesSphere p xsTotal xs ext bnd phi) (h' : SolvesSphere p xsTotal xs ext' bnd' phi') :
    SolvesSphere p xsTotal xs ext'' bnd'' fun i g => a * phi i g + b * phi' i g := by
  intro g hg
  have hsum : ∀ i, (∑ g' ∈ range p.groups, xs (p.mm i) g g' * (a * phi i g' + b * phi' i g'))
      = a * (∑ g' ∈ range p.groups, xs (p.mm i) g g' * phi i g') + b * ∑ g' ∈ range p.groups, xs (p.mm i) g g' * phi' i g' := by
    intro i
    rw [mul_sum, mul_sum, ← sum_add_distrib]
    exact sum_congr rfl fun g' _ => by ring
  refine sphereFlux_congr (sphereFlux_combine a b (h g hg) (h' g hg)) (fun n hn i hi => ?_) (fun i hi => ?_) ?_
    (fun n hn => ?_) fun _ _ => rfl
  · beta_reduce; rw [hsum, he i hi n hn g hg]; ring
  · beta_reduce; rw [hsum, he i hi 0 hA g hg]; ring
  · exact (hb 0 hA g hg).symm
  · exact (hb n hn g hg).symm

/-! ## Scaled spheres -/

/-- The flux of a scaled problem: lengths times `s`, areas and volumes by any positive constant `t` more, cross sections
divided by `s`, sources times `c / s`, entering fluxes times `c`. -/
theorem sphereFlux_image {N A : ℕ} {pi pi' : K} {mu mu' w w' sigma sigma' dx dx' : ℕ → K} {q q' : ℕ → ℕ → K}
    {q0 q0' : ℕ → K} {b0 b0' : K} {inR inR' f : ℕ → K} (c s t : K) (hs : s ≠ 0) (hpi : pi' = t * pi)
    (hdx0 : ∀ i < N, dx i ≠ 0) (hmu : ∀ n < A, mu' n = mu n) (hw : ∀ n < A, w' n = w n)
    (hdx : ∀ i < N, dx' i = s * dx i) (hsig : ∀ i < N, sigma' i = sigma i / s)
    (hq : ∀ n < A, ∀ i < N, q' n i = c / s * q n i) (hq0 : ∀ i < N, q0' i = c / s * q0 i) (hb0 : b0' = c * b0)
    (hin : ∀ n < A, inR' n = c * inR n) (h : SphereFlux N A pi mu w sigma dx q q0 b0 inR f) :
    SphereFlux N A pi' mu' w' sigma' dx' q' q0' b0' inR' fun i => c * f i := by
  obtain ⟨psi, cc, hh, e0, S, hf⟩ := h
  have halpha : ∀ n ≤ A, alpha mu' w' n = alpha mu w n := by
    intro n hn
    unfold alpha
    congr 1
    exact sum_congr rfl fun m hm => by rw [hmu m (by have := mem_range.mp hm; omega), hw m (by have := mem_range.mp hm; omega)]
  have hedge : ∀ n ≤ A, muEdge w' n = muEdge w n := by
    intro n hn
    unfold muEdge
    congr 2
    exact sum_congr rfl fun m hm => by rw [hw m (by have := mem_range.mp hm; omega)]
  refine ⟨fun n i => c * psi n i, fun n i => c * cc n i, fun n i => c * hh n i, fun i => c * e0 i,
    ⟨fun i hi => ?_, ?_, fun i hi => ?_, fun n hn i hi => ?_, fun n hn i hi => ?_, fun n hn hm => ?_, fun n hn hm => ?_,
      fun n hn i hi => ?_⟩, fun i hi => ?_⟩
  · have h1 := S.start i hi
    have hd := hdx0 i hi
    beta_reduce
    rw [hdx i hi, hsig i hi, hq0 i hi, ← h1]
    field_simp
  · beta_reduce
    rw [S.startIn, hb0]
  · beta_reduce
    rw [S.startHalf i hi]; ring
  · have h1 := S.balance n hn i hi
    unfold SphereBalance Sphere.area1 Sphere.area2 Sphere.volume at h1 ⊢
    beta_reduce
    rw [hmu n hn, hw n hn, halpha n hn.le, halpha (n + 1) hn, hsig i hi, hq n hn i hi, hdx i hi, hpi]
    have e : sigma i / s * (4 / 3 * (t * pi) * (((((i : K) + 1) * (s * dx i)) ^ 3) - ((i : K) * (s * dx i)) ^ 3))
        = t * s ^ 2 * (sigma i * (4 / 3 * pi * (((((i : K) + 1) * dx i) ^ 3) - ((i : K) * dx i) ^ 3))) := by
      field_simp
    have e' : 4 / 3 * (t * pi) * (((((i : K) + 1) * (s * dx i)) ^ 3) - ((i : K) * (s * dx i)) ^ 3) * (c / s * q n i)
        = t * s ^ 2 * c * (4 / 3 * pi * (((((i : K) + 1) * dx i) ^ 3) - ((i : K) * dx i) ^ 3) * q n i) := by
      field_simp
    rw [e, e']
    linear_combination (t * s ^ 2 * c) * h1
  · beta_reduce
    have := S.diamond n hn i hi
    linear_combination c * this
  · beta_reduce
    rw [hmu n hn] at hm
    rw [S.inward n hn hm, hin n hn]
  · beta_reduce
    rw [hmu n hn] at hm
    rw [S.outward n hn hm]
  · beta_reduce
    rw [S.angular n hn i hi, hmu n hn, hw n hn, hedge n hn.le]
    split
    · rfl
    · ring
  · beta_reduce
    rw [hf i hi, mul_sum]
    exact sum_congr rfl fun n hn => by rw [hw n (mem_range.mp hn)]; ring

theorem similar_sphere_ok {c s t : K} {p p' : Problem K} {xsTotal xsTotal' : ℕ → ℕ → K} (hs : 0 < s) (ht : 0 < t)
    (hpi : p'.pi = t * p.pi) (hp : SimilarProblem c s false id p p')
    (hx : ∀ i < p.cells, ∀ g < p.groups, xsTotal' (p'.mm i) g = xsTotal (p.mm (seen false p.cells i)) g / s)
    (hok : SphereOk p xsTotal) : SphereOk p' xsTotal' where
  sphere := by rw [hp.geometry]; exact hok.sphere
  mesh g hg := by
    rw [hp.groups] at hg
    refine ⟨by rw [hpi]; exact mul_pos ht (hok.mesh g hg).pi_pos, fun i hi => ?_, fun i hi => ?_⟩
    · rw [hp.cells] at hi
      rw [hp.dx i hi]; exact mul_pos hs ((hok.mesh g hg).dx_pos _ hi)
    · rw [hp.cells] at hi
      beta_reduce
      rw [hx i hi g hg]; exact div_nonneg ((hok.mesh g hg).sigma_nonneg _ hi) hs.le
  quad := by
    have hX : ∀ n < p.angles, p'.angleX n = p.angleX n := fun n hn => hp.angleX n hn
    have hW : ∀ n < p.angles, p'.angleW n = p.angleW n := fun n hn => hp.angleW n hn
    rw [hp.angles]
    refine ⟨⟨fun n hn => ?_, fun n hn => ?_⟩, fun n hn => ?_, fun n hn => ?_, fun m n hmn hn => ?_⟩
    · rw [hX n hn, hX _ (by omega)]; exact hok.quad.sym.1 n hn
    · rw [hX n hn]; exact hok.quad.sym.2 n hn
    · rw [hW n hn, hW _ (by omega)]; exact hok.quad.weightSym n hn
    · rw [hW n hn]; exact hok.quad.weightPos n hn
    · rw [hX n hn, hX m (by omega)]; exact hok.quad.ascending m n hmn hn
  angles := by rw [hp.angles]; exact hok.angles

/-- The two spherical solvers side by side. -/
theorem similar_sphere (c s t : K) (p p' : Problem K) (xsTotal xsTotal' : ℕ → ℕ → K)
    (xs xs' : ℕ → ℕ → ℕ → K) (ext ext' bnd bnd' : Arr3 K) (flux flux' : ℕ → ℕ → K) (hs : 0 < s) (ht : 0 < t)
    (hpi : p'.pi = t * p.pi) (hok : SphereOk p xsTotal) (hp : SimilarProblem c s false id p p')
    (hx : SimilarXs s false p p' xsTotal xsTotal' xs xs')
    (hq : SimilarSources c s false id p ext ext' bnd bnd')
    (hf : Image2 c false p.cells p.groups flux flux') :
    ∃ out out', sourceIteration p xsTotal (.iso xs) ext bnd flux = .ok out ∧
      sourceIteration p' xsTotal' (.iso xs') ext' bnd' flux' = .ok out' ∧
      Image2 c false p.cells p.groups out out' := by
  have hok' := similar_sphere_ok hs ht hpi hp hx.total hok
  unfold sourceIteration sourceIterationIso
  refine iterateE_rel (Image2 c false p.cells p.groups) (fun old old' hold => ?_)
    (fun a b x y hab hxy => hp.convOut a b x y hab hxy) 99 flux flux' hf
  unfold oneSweepIso
  rw [hp.groups]
  refine loopE_rel (fun _ => Image2 c false p.cells p.groups) p.groups
    (fun i _ g _ => by simp) (fun g hg f f' hff => ?_)
  have hg' : g < p'.groups := by rw [hp.groups]; exact hg
  have main : ∃ a b, Sphere.isotropicSn p.cells p.angles p.convIn p.pi (fun m => xsTotal m g) (fun m => xs m g g)
        (offScatter p.groups f old p.mm xs g) (ext.group (bidx ext.groups g))
        (bnd.group (bidx bnd.groups g)) p.mm p.dx p.angleX p.angleW false (fun i => old i g) = .ok a ∧
      Sphere.isotropicSn p'.cells p'.angles p'.convIn p'.pi (fun m => xsTotal' m g) (fun m => xs' m g g)
        (offScatter p'.groups f' old' p'.mm xs' g) (ext'.group (bidx ext'.groups g))
        (bnd'.group (bidx bnd'.groups g)) p'.mm p'.dx p'.angleX p'.angleW false
        (fun i => old' i g) = .ok b ∧ Image c false p.cells a b := by
    unfold Sphere.isotropicSn
    refine iterateE_rel (Image c false p.cells) (fun a a' haa => ?_)
      (fun a b x y hab hxy => hp.convIn a b x y hab hxy) 99 _ _ (fun i hi => hold i hi g hg)
    obtain ⟨r, hr, hfl⟩ := sphere_group_sweep p xsTotal xs ext bnd hok f old a g hg
    obtain ⟨r', hr', hfl'⟩ := sphere_group_sweep p' xsTotal' xs' ext' bnd' hok' f' old' a' g hg'
    refine ⟨r, r', hr, hr', fun i hi => ?_⟩
    rw [hp.cells, hp.angles, hp.groups] at hfl'
    have hsrc : ∀ i < p.cells, (∑ og ∈ (range p.groups).erase g, xs' (p'.mm i) g og * (if og < g then f' i og else old' i og))
        + xs' (p'.mm i) g g * a' i = c / s * ((∑ og ∈ (range p.groups).erase g, xs (p.mm i) g og
          * (if og < g then f i og else old i og)) + xs (p.mm i) g g * a i) := by
      intro i hi
      have e0 : a' i = c * a i := haa i hi
      have e1 : xs' (p'.mm i) g g = xs (p.mm i) g g / s := hx.scatter i hi g hg g hg
      rw [e0, e1, mul_add, mul_sum]
      congr 1
      · refine sum_congr rfl fun g' hg'' => ?_
        have hg3 := mem_range.mp (mem_erase.mp hg'').2
        have e2 : xs' (p'.mm i) g g' = xs (p.mm i) g g' / s := hx.scatter i hi g hg g' hg3
        have e3 : f' i g' = c * f i g' := hff i hi g' hg3
        have e4 : old' i g' = c * old i g' := hold i hi g' hg3
        rw [e2, e3, e4]
        split <;> ring
      · ring
    have hext : ∀ i < p.cells, ∀ n < p.angles, sourceAt ext' i n g = c / s * sourceAt ext i n g :=
      fun i hi n hn => hq.ext i hi n hn g hg
    have hbnd : ∀ n < p.angles, sourceAt bnd' 1 n g = c * sourceAt bnd 1 n g :=
      fun n hn => hq.bnd 1 (by norm_num) n hn g hg
    have himg := sphereFlux_image (mu' := p'.angleX) (w' := p'.angleW) (sigma' := fun i => xsTotal' (p'.mm i) g)
      (dx' := p'.dx)
      (q' := fun n i => (∑ og ∈ (range p.groups).erase g, xs' (p'.mm i) g og * (if og < g then f' i og else old' i og))
          + sourceAt ext' i n g + xs' (p'.mm i) g g * a' i)
      (q0' := fun i => (∑ og ∈ (range p.groups).erase g, xs' (p'.mm i) g og * (if og < g then f' i og else old' i og))
          + sourceAt ext' i 0 g + xs' (p'.mm i) g g * a' i)
      (b0' := sourceAt bnd' 1 0 g) (inR' := fun n => sourceAt bnd' 1 n g)
      c s t hs.ne' hpi (fun i hi => ((hok.mesh g hg).dx_pos i hi).ne')
      (fun n hn => hp.angleX n hn) (fun n hn => hp.angleW n hn) (fun i hi => hp.dx i hi)
      (fun i hi => hx.total i hi g hg)
      (fun n hn i hi => by
        beta_reduce
        rw [hext i hi n hn]
        linear_combination hsrc i hi)
      (fun i hi => by
        beta_reduce
        rw [hext i hi 0 hok.angles]
        linear_combination hsrc i hi)
      (hbnd 0 hok.angles) (fun n hn => hbnd n hn) hfl
    have hm := hok'.mesh g hg'
    have hqd := hok'.quad
    rw [hp.cells] at hm
    rw [hp.angles] at hqd
    exact sphereFlux_unique hm hqd hfl' himg (fun _ _ _ _ => rfl) (fun _ _ => rfl) rfl (fun _ _ => rfl) i hi
  obtain ⟨a, b, ha, hb, hab⟩ := main
  refine ⟨putCol f g a, putCol f' g b, ?_, ?_, fun i hi g' hg' => ?_⟩
  · unfold groupStepIso; rw [hok.sphere, if_neg (by norm_num), if_pos rfl, ha]; rfl
  · unfold groupStepIso; rw [hok'.sphere, if_neg (by norm_num), if_pos rfl, hb]; rfl
  · unfold putCol
    split
    · exact hab i hi
    · exact hff i hi g' hg'

end General

end Discrete1.Props
