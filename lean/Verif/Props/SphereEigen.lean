import Verif.Props.SphereSolve
import Verif.Props.Symmetry

/-!
# C191, C192: units and eigenvalues of spheres
-/

set_option linter.unusedSectionVars false
set_option linter.unusedSimpArgs false

namespace Discrete1.Props

open Finset Discrete1.Spec Discrete1.Slab Discrete1.Tools Discrete1.MultiGroup Discrete1.Drivers Discrete1.Critical

section General

variable {K : Type} [Field K] [LinearOrder K] [IsStrictOrderedRing K]

/-! ## C191: scaling -/

/-- C191: multiplying source, boundary values and guess by `c ≠ 0` multiplies the flux of the sphere by `c`. -/
theorem C191_scale (c : K) (hc : c ≠ 0) (p : Problem K) (xsTotal : ℕ → ℕ → K) (xs : ℕ → ℕ → ℕ → K)
    (ext bnd : Arr3 K) (flux : ℕ → ℕ → K) (hok : SphereOk p xsTotal) (hstd : Standard p) :
    ∃ out out', sourceIteration p xsTotal (.iso xs) ext bnd flux = .ok out ∧
      sourceIteration p xsTotal (.iso xs) (scaleArr c ext) (scaleArr c bnd) (fun i g => c * flux i g)
        = .ok out' ∧
      ∀ i < p.cells, ∀ g < p.groups, out' i g = c * out i g := by
  obtain ⟨o, o', h1, h2, h3⟩ := similar_sphere c 1 1 p p xsTotal xsTotal xs xs
    ext (scaleArr c ext) bnd (scaleArr c bnd) flux (fun i g => c * flux i g) one_pos one_pos (one_mul _).symm hok
    (scale_similar hc hstd) (same_xs p xsTotal xs) (scale_sources c p ext bnd)
    (fun i hi g hg => by simp [seen])
  exact ⟨o, o', h1, h2, fun i hi g hg => by simpa [seen] using h3 i hi g hg⟩

/-- C191: the flux of the sphere does not depend on the unit of length. -/
theorem C191_units (s : K) (hs : 0 < s) (p : Problem K) (xsTotal : ℕ → ℕ → K) (xs : ℕ → ℕ → ℕ → K)
    (ext bnd : Arr3 K) (flux : ℕ → ℕ → K) (hok : SphereOk p xsTotal) (hstd : Standard p) :
    ∃ out out', sourceIteration p xsTotal (.iso xs) ext bnd flux = .ok out ∧
      sourceIteration (rescaleProblem s p) (fun m g => xsTotal m g / s) (.iso fun m g g' => xs m g g' / s)
        (scaleArr (1 / s) ext) bnd flux = .ok out' ∧
      ∀ i < p.cells, ∀ g < p.groups, out' i g = out i g := by
  obtain ⟨o, o', h1, h2, h3⟩ := similar_sphere 1 s 1 p (rescaleProblem s p) xsTotal _ xs _
    ext (scaleArr (1 / s) ext) bnd bnd flux flux hs one_pos (one_mul _).symm hok
    (rescale_similar hstd) (rescale_xs s p xsTotal xs) (rescale_sources s p ext bnd)
    (fun i hi g hg => by simp [seen])
  exact ⟨o, o', h1, h2, fun i hi g hg => by simpa [seen] using h3 i hi g hg⟩

theorem pi_similar {t : K} {p : Problem K} (h : Standard p) :
    SimilarProblem 1 1 false id p { p with pi := t * p.pi } where
  perm := id_permutes _
  order := Or.inl fun _ _ => rfl
  cells := rfl
  groups := rfl
  angles := rfl
  geometry := rfl
  dx i hi := by simp [seen]
  angleX n hn := by simp [turned]
  angleW n hn := rfl
  bcL := by simp
  bcR := by simp
  convIn := (standard_similar one_ne_zero h rfl rfl (s := 1)).1
  convOut := (standard_similar one_ne_zero h rfl rfl (s := 1)).2

/-- C191: the value used for `pi` cancels: any other positive constant gives the same flux. -/
theorem C191_pi (t : K) (ht : 0 < t) (p : Problem K) (xsTotal : ℕ → ℕ → K) (xs : ℕ → ℕ → ℕ → K)
    (ext bnd : Arr3 K) (flux : ℕ → ℕ → K) (hok : SphereOk p xsTotal) (hstd : Standard p) :
    ∃ out out', sourceIteration p xsTotal (.iso xs) ext bnd flux = .ok out ∧
      sourceIteration { p with pi := t * p.pi } xsTotal (.iso xs) ext bnd flux = .ok out' ∧
      ∀ i < p.cells, ∀ g < p.groups, out' i g = out i g := by
  obtain ⟨o, o', h1, h2, h3⟩ := similar_sphere 1 1 t p { p with pi := t * p.pi } xsTotal xsTotal xs xs
    ext ext bnd bnd flux flux one_pos ht rfl hok (pi_similar hstd)
    ⟨fun i hi g hg => by simp [seen], fun i hi g hg g' hg' => by simp [seen]⟩
    ⟨fun i hi n hn g hg => by simp [seen], fun t ht n hn g hg => by simp [faceOf]⟩
    (fun i hi g hg => by simp [seen])
  exact ⟨o, o', h1, h2, fun i hi g hg => by simpa [seen] using h3 i hi g hg⟩

/-! ## C192: eigenvalues -/

/-- `phi`, `k` solve the k-eigenvalue equations of the sphere: in every group `phi` is the flux of the spherical scheme
whose source is the scattering of `phi` plus its fission emission divided by `k`, with nothing entering. -/
def SphereEigenpair (p : Problem K) (xsTotal : ℕ → ℕ → K) (xs F : ℕ → ℕ → ℕ → K) (phi : ℕ → ℕ → K) (k : K) : Prop :=
  ∀ g < p.groups, SphereFlux p.cells p.angles p.pi p.angleX p.angleW (fun i => xsTotal (p.mm i) g) p.dx
    (fun _ i => (∑ g' ∈ range p.groups, xs (p.mm i) g g' * phi i g')
      + (∑ g' ∈ range p.groups, F (p.mm i) g g' * phi i g') / k)
    (fun i => (∑ g' ∈ range p.groups, xs (p.mm i) g g' * phi i g')
      + (∑ g' ∈ range p.groups, F (p.mm i) g g' * phi i g') / k)
    0 (fun _ => 0) (fun i => phi i g)

theorem fission_source_at (p : Problem K) (fission : Fission K) (hf : FissionNonneg p.groups fission)
    (flux : ℕ → ℕ → K) (keff : K) (i n g : ℕ) (hg : g < p.groups) :
    sourceAt (fissionSource p.groups p.mm fission flux keff) i n g
      = (∑ g' ∈ range p.groups, fissionMatrix fission (p.mm i) g g' * flux i g') / keff :=
  fissionSource_val p fission hf flux keff i n g hg

theorem zero_source_at (t n g : ℕ) : sourceAt (zeroBoundary : Arr3 K) t n g = 0 := by
  simp [sourceAt, zeroBoundary]

/-- An eigenpair solves the multigroup equations with its own fission source, and conversely. -/
theorem eigenpair_iff_solves (p : Problem K) (xsTotal : ℕ → ℕ → K) (xs : ℕ → ℕ → ℕ → K) (fission : Fission K)
    (hf : FissionNonneg p.groups fission) (phi : ℕ → ℕ → K) (k : K) :
    SphereEigenpair p xsTotal xs (fissionMatrix fission) phi k ↔
      SolvesSphere p xsTotal xs (fissionSource p.groups p.mm fission phi k) zeroBoundary phi := by
  constructor
  · intro h g hg
    refine sphereFlux_congr (h g hg) (fun n _ i _ => ?_) (fun i _ => ?_) (zero_source_at _ _ _).symm
      (fun n _ => (zero_source_at _ _ _).symm) fun _ _ => rfl
    · rw [fission_source_at p fission hf _ _ _ _ _ hg, add_zero]
    · rw [fission_source_at p fission hf _ _ _ _ _ hg, add_zero]
  · intro h g hg
    refine sphereFlux_congr (h g hg) (fun n _ i _ => ?_) (fun i _ => ?_) (zero_source_at _ _ _)
      (fun n _ => zero_source_at _ _ _) fun _ _ => rfl
    · rw [fission_source_at p fission hf _ _ _ _ _ hg, add_zero]
    · rw [fission_source_at p fission hf _ _ _ _ _ hg, add_zero]

/-- Source iteration never fails on a sphere. -/
theorem sphere_ok (p : Problem K) (xsTotal : ℕ → ℕ → K) (xs : ℕ → ℕ → ℕ → K) (ext bnd : Arr3 K)
    (guess : ℕ → ℕ → K) (hok : SphereOk p xsTotal) :
    ∃ phi, sourceIteration p xsTotal (.iso xs) ext bnd guess = .ok phi := by
  obtain ⟨x, k, _, _, _, _, he, _⟩ := iterateE_spec (oneSweepIso p xsTotal xs ext bnd) p.convOut
    (fun _ => True) (fun a _ => by
      obtain ⟨f, _, _, hf, _⟩ := sphere_outer p xsTotal xs ext bnd hok a; exact ⟨f, hf, trivial⟩) 99 guess trivial
  exact ⟨_, he⟩

/-- C192: `power_iteration` on a sphere performs between 1 and 100 passes, one power step each, and returns the last. -/
theorem C192_power_iteration_stops (p : Problem K) (norm : (ℕ → ℕ → K) → K)
    (conv : (ℕ → ℕ → K) → (ℕ → ℕ → K) → Bool) (xsTotal : ℕ → ℕ → K) (xs : ℕ → ℕ → ℕ → K)
    (fission : Fission K) (random : ℕ → ℕ → K) (hok : SphereOk p xsTotal) :
    ∃ x n, Run (powerStep p norm xsTotal (.iso xs) fission) (fun a b => conv a.flux b.flux) 100
        (start norm random) x n ∧
      powerIteration p norm conv xsTotal (.iso xs) fission random = .ok (x n, n) := by
  obtain ⟨x, n, hr, he⟩ := powerLoop_spec (powerStep p norm xsTotal (.iso xs) fission) conv (fun _ => True)
    (fun s _ => by
      obtain ⟨f, h⟩ := sphere_ok p xsTotal xs (fissionSource p.groups p.mm fission s.flux s.keff) zeroBoundary s.flux hok
      exact ⟨_, by unfold powerStep; rw [h], trivial⟩) 99 0 (start norm random) trivial
  refine ⟨x, n, hr, ?_⟩
  unfold powerIteration
  rw [he, Nat.zero_add]

/-- C192: a normalised eigenpair of the sphere is kept by the power iteration, whatever the inner tests. -/
theorem C192_eigenpair_kept (p : Problem K) (norm : (ℕ → ℕ → K) → K) (xsTotal : ℕ → ℕ → K)
    (xs : ℕ → ℕ → ℕ → K) (fission : Fission K) (hok : SphereOk p xsTotal)
    (hf : FissionNonneg p.groups fission) (s : KState K)
    (hnorm : ∀ f, (∀ i < p.cells, ∀ g < p.groups, f i g = s.flux i g) → norm f = 1)
    (hprod : totalProduction p (fissionMatrix fission) s.flux ≠ 0)
    (h : SphereEigenpair p xsTotal xs (fissionMatrix fission) s.flux s.keff) :
    ∃ s', powerStep p norm xsTotal (.iso xs) fission s = .ok s' ∧
      (∀ i < p.cells, ∀ g < p.groups, s'.flux i g = s.flux i g) ∧ s'.keff = s.keff := by
  obtain ⟨flux, h1, h2⟩ := C190_solution_kept p xsTotal xs _ _ hok s.flux
    ((eigenpair_iff_solves p xsTotal xs fission hf s.flux s.keff).mp h)
  refine ⟨_, by unfold powerStep; rw [h1], fun i hi g hg => ?_, ?_⟩
  · simp only [normalise, hnorm flux h2, div_one]; exact h2 i hi g hg
  · simp only
    rw [updateKeff_eq p fission hf, totalProduction_congr p _ flux s.flux h2, mul_div_assoc, div_self hprod,
      mul_one]

/-- C192: without scattering into the same or a lower-numbered group, a state that a pass leaves alone is an eigenpair of
the sphere. -/
theorem C192_fixed_point_is_eigenpair (p : Problem K) (norm : (ℕ → ℕ → K) → K) (xsTotal : ℕ → ℕ → K)
    (xs : ℕ → ℕ → ℕ → K) (fission : Fission K) (hok : SphereOk p xsTotal)
    (hdown : ∀ m g g', g ≤ g' → xs m g g' = 0) (hf : FissionNonneg p.groups fission) (s s' : KState K)
    (hstep : powerStep p norm xsTotal (.iso xs) fission s = .ok s')
    (hflux : ∀ i < p.cells, ∀ g < p.groups, s'.flux i g = s.flux i g) (hkeff : s'.keff = s.keff)
    (hk : s.keff ≠ 0) (hprod : totalProduction p (fissionMatrix fission) s.flux ≠ 0) :
    SphereEigenpair p xsTotal xs (fissionMatrix fission) s.flux s.keff := by
  obtain ⟨flux, h1, hsol⟩ := C190_downscatter_exact p xsTotal xs (fissionSource p.groups p.mm fission s.flux s.keff)
    zeroBoundary s.flux hok hdown
  have h2 : powerStep p norm xsTotal (.iso xs) fission s
      = .ok ⟨normalise norm flux, updateKeff p.cells p.groups p.mm fission flux s.flux s.keff⟩ := by
    unfold powerStep; rw [h1]
  rw [hstep] at h2
  have h2 : s' = _ := Except.ok.inj h2
  subst h2
  simp only at hflux hkeff
  rw [updateKeff_eq p fission hf] at hkeff
  have hfix := normalised_fixed hprod hk hflux hkeff
  refine (eigenpair_iff_solves p xsTotal xs fission hf s.flux s.keff).mpr fun g hg => ?_
  have hsum : ∀ i < p.cells, (∑ g' ∈ range p.groups, xs (p.mm i) g g' * flux i g')
      = ∑ g' ∈ range p.groups, xs (p.mm i) g g' * s.flux i g' := fun i hi =>
    sum_congr rfl fun g' hg' => by rw [hfix i hi g' (mem_range.mp hg')]
  refine sphereFlux_congr (hsol g hg) (fun n _ i hi => ?_) (fun i hi => ?_) rfl (fun _ _ => rfl)
    fun i hi => hfix i hi g hg
  · rw [hsum i hi]
  · rw [hsum i hi]

/-- The two power iterations side by side. -/
theorem similar_sphere_power (s : K) (p p' : Problem K)
    (norm norm' : (ℕ → ℕ → K) → K) (conv conv' : (ℕ → ℕ → K) → (ℕ → ℕ → K) → Bool)
    (xsTotal xsTotal' : ℕ → ℕ → K) (scatter scatter' : ℕ → ℕ → ℕ → K) (fission fission' : Fission K)
    (random random' : ℕ → ℕ → K) (hs : 0 < s) (hpi : p'.pi = p.pi) (hok : SphereOk p xsTotal)
    (hp : SimilarProblem 1 s false id p p') (hx : SimilarXs s false p p' xsTotal xsTotal' scatter scatter')
    (hF : ∀ i < p.cells, ∀ g < p.groups, ∀ g' < p.groups, fissionMatrix fission' (p'.mm i) g g'
      = fissionMatrix fission (p.mm (seen false p.cells i)) g g' / s)
    (hpos : FissionNonneg p.groups fission) (hpos' : FissionNonneg p.groups fission')
    (hnorm : ∀ f f', Image2 1 false p.cells p.groups f f' → norm' f' = norm f)
    (hconv : ∀ a a' b b', Image2 1 false p.cells p.groups a a' → Image2 1 false p.cells p.groups b b' →
      conv' a' b' = conv a b)
    (hrand : Image2 1 false p.cells p.groups random random') :
    ∃ r r' n, powerIteration p norm conv xsTotal (.iso scatter) fission random = .ok (r, n) ∧
      powerIteration p' norm' conv' xsTotal' (.iso scatter') fission' random' = .ok (r', n) ∧
      Image2 1 false p.cells p.groups r.flux r'.flux ∧ r'.keff = r.keff := by
  unfold powerIteration
  obtain ⟨r, r', n, h1, h2, h3⟩ := powerLoop_rel
    (fun a b => Image2 1 false p.cells p.groups a.flux b.flux ∧ b.keff = a.keff)
    (f := powerStep p norm xsTotal (.iso scatter) fission)
    (f' := powerStep p' norm' xsTotal' (.iso scatter') fission') (conv := conv) (conv' := conv')
    (fun a b hab => by
      have hpos2 : FissionNonneg p'.groups fission' := by rw [hp.groups]; exact hpos'
      obtain ⟨o, o', ho, ho', himg⟩ := similar_sphere 1 s 1 p p' xsTotal xsTotal' scatter
        scatter' (fissionSource p.groups p.mm fission a.flux a.keff)
        (fissionSource p'.groups p'.mm fission' b.flux b.keff) zeroBoundary zeroBoundary a.flux b.flux hs one_pos
        (by rw [hpi, one_mul])
        hok hp hx ⟨fun i hi n hn g hg => by
            have e1 := fissionSource_val p fission hpos a.flux a.keff (seen false p.cells i) (id n) g hg
            have e2 := fissionSource_val p' fission' hpos2 b.flux b.keff i n g (by rw [hp.groups]; exact hg)
            refine e2.trans (Eq.trans ?_ (congrArg (1 / s * ·) e1).symm)
            rw [hp.groups, hab.2, ← mul_div_assoc, mul_sum]
            congr 1
            refine sum_congr rfl fun g' hg' => ?_
            rw [hF i hi g hg g' (mem_range.mp hg'), hab.1 i hi g' (mem_range.mp hg')]
            ring, fun t _ n _ g _ => by simp [sourceAt, zeroBoundary]⟩ hab.1
      refine ⟨_, _, by unfold powerStep; rw [ho], by unfold powerStep; rw [ho'], ?_, ?_⟩
      · intro i hi g hg
        simp only [normalise]
        rw [hnorm o o' himg, himg i hi g hg, mul_div_assoc]
      · simp only
        rw [updateKeff_eq p fission hpos, updateKeff_eq p' fission' hpos2, hab.2,
          similar_production hp hF himg, similar_production hp hF hab.1, mul_left_comm,
          mul_div_mul_left _ _ (one_div_ne_zero hs.ne')])
    (fun a b x y hab hxy => hconv _ _ _ _ hab.1 hxy.1) 99 0 (start norm random) (start norm' random')
    ⟨fun i hi g hg => by
      simp only [start]
      rw [hnorm _ _ hrand, hrand i hi g hg, mul_div_assoc], hnorm _ _ hrand⟩
  exact ⟨r, r', n, h1, h2, h3⟩

/-- C191 for the eigenvalue: `k` and the flux of a sphere do not depend on the unit of length. -/
theorem C191_power (s : K) (hs : 0 < s) (p : Problem K) (norm : (ℕ → ℕ → K) → K) (xsTotal : ℕ → ℕ → K)
    (scatter : ℕ → ℕ → ℕ → K) (fission : Fission K) (random : ℕ → ℕ → K)
    (hok : SphereOk p xsTotal) (hstd : Standard p) (hF : FissionNonneg p.groups fission)
    (hnorm : NormOk p.cells p.groups norm) :
    ∃ r r' n, powerIteration p norm (fluxConverged2 p.cells p.groups (1 / 10 ^ 6)) xsTotal (.iso scatter)
        fission random = .ok (r, n) ∧
      powerIteration (rescaleProblem s p) norm (fluxConverged2 p.cells p.groups (1 / 10 ^ 6))
        (fun m g => xsTotal m g / s) (.iso fun m g g' => scatter m g g' / s) (scaleFission s fission) random
        = .ok (r', n) ∧
      r'.keff = r.keff ∧ ∀ i < p.cells, ∀ g < p.groups, r'.flux i g = r.flux i g := by
  obtain ⟨r, r', n, h1, h2, h3, h4⟩ := similar_sphere_power s p (rescaleProblem s p) norm norm
    (fluxConverged2 p.cells p.groups (1 / 10 ^ 6)) (fluxConverged2 p.cells p.groups (1 / 10 ^ 6)) xsTotal
    _ scatter _ fission (scaleFission s fission) random random hs rfl hok
    (rescale_similar hstd) (rescale_xs s p xsTotal scatter)
    (fun i hi g hg g' hg' => by rw [fissionMatrix_scale]; simp [rescaleProblem, seen]) hF
    (by
      cases fission with
      | matrix f => exact fun m o ho i hi => div_nonneg (hF m o ho i hi) hs.le
      | vector chi nu => exact hF)
    (fun f f' h => hnorm.local_ f f' fun i hi g hg => by simpa [seen] using h i hi g hg)
    (fun a a' b b' ha hb => fluxConverged2_image one_ne_zero _ ha hb)
    (fun i hi g hg => by simp [seen])
  exact ⟨r, r', n, h1, h2, h4, fun i hi g hg => by simpa [seen] using h3 i hi g hg⟩

end General

/-! Examples -/

/-- A ball of three shells, two groups, two ordinates, the criteria of the code. -/
def exBall : Problem ℚ where
  cells := 3
  groups := 2
  angles := 2
  mm := fun i => if i = 0 then 0 else 1
  dx := fun _ => 1
  angleX := fun n => if n = 0 then -1 / 2 else 1 / 2
  angleW := fun _ => 1 / 2
  bcL := false
  bcR := false
  geometry := 2
  pi := 3
  convIn := fluxConverged 3 (1 / 10 ^ 12)
  convOut := fluxConverged2 3 2 (1 / 10 ^ 8)

theorem exBallOk (xsTotal : ℕ → ℕ → ℚ) (h : ∀ m g, 0 ≤ xsTotal m g) : SphereOk exBall xsTotal where
  sphere := rfl
  mesh := fun g _ => ⟨by show (0 : ℚ) < 3; norm_num, fun _ _ => by show (0 : ℚ) < 1; norm_num, fun _ _ => h _ _⟩
  quad := exSphereQuad
  angles := by show 0 < 2; norm_num

theorem exBallStandard : Standard exBall := ⟨rfl, rfl⟩

theorem exBallTotal (m g : ℕ) : (0 : ℚ) ≤ (m : ℚ) + g + 1 := by positivity

/-- Scattering downwards only. -/
def exBallDown (_ g g' : ℕ) : ℚ := if g' < g then 1 / 2 else 0

example := C190_returned_flux_residual exBall (fun m g => (m : ℚ) + g + 1) (fun _ _ _ => 1 / 4)
  ⟨1, 2, fun i _ g => (i : ℚ) + g⟩ ⟨1, 1, fun _ _ _ => 1⟩ (fun i g => (i : ℚ) * g) (1 / 10 ^ 12) (1 / 10 ^ 8) (by norm_num)
  (by norm_num) (exBallOk _ exBallTotal) rfl rfl

theorem exBallDown_zero (m g g' : ℕ) (h : g ≤ g') : exBallDown m g g' = 0 := if_neg (by omega)

example := C190_downscatter_exact exBall (fun m g => (m : ℚ) + g + 1) exBallDown
  ⟨1, 2, fun i _ g => (i : ℚ) + g⟩ ⟨1, 1, fun _ _ _ => 1⟩ (fun i g => (i : ℚ) * g) (exBallOk _ exBallTotal) exBallDown_zero

/-- A solution to keep, to compare and to superpose. -/
example : ∃ phi, SolvesSphere exBall (fun m g => (m : ℚ) + g + 1) exBallDown ⟨1, 2, fun i _ g => (i : ℚ) + g⟩
      ⟨1, 1, fun _ _ _ => 1⟩ phi ∧
    (∃ out, sourceIteration exBall (fun m g => (m : ℚ) + g + 1) (.iso exBallDown) ⟨1, 2, fun i _ g => (i : ℚ) + g⟩
      ⟨1, 1, fun _ _ _ => 1⟩ phi = .ok out ∧ ∀ i < 3, ∀ g < 2, out i g = phi i g) ∧
    SolvesSphere exBall (fun m g => (m : ℚ) + g + 1) exBallDown ⟨1, 2, fun i _ g => 5 * ((i : ℚ) + g)⟩
      ⟨1, 1, fun _ _ _ => 5⟩ (fun i g => 2 * phi i g + 3 * phi i g) := by
  obtain ⟨phi, _, h⟩ := C190_downscatter_exact exBall (fun m g => (m : ℚ) + g + 1) exBallDown
    ⟨1, 2, fun i _ g => (i : ℚ) + g⟩ ⟨1, 1, fun _ _ _ => 1⟩ (fun i g => (i : ℚ) * g) (exBallOk _ exBallTotal)
    exBallDown_zero
  refine ⟨phi, h, C190_solution_kept exBall _ _ _ _ (exBallOk _ exBallTotal) phi h,
    C190_superposition exBall _ _ 2 3 _ _ _ _ _ _ phi phi (by show 0 < 2; norm_num) (fun i _ n _ g _ => ?_)
      (fun n _ g _ => ?_) h h⟩
  · simp only [sourceAt]; ring
  · simp only [sourceAt]; norm_num

example (phi phi' : ℕ → ℕ → ℚ) := C190_downscatter_unique exBall (fun m g => (m : ℚ) + g + 1) exBallDown
  ⟨1, 2, fun i _ g => (i : ℚ) + g⟩ ⟨1, 1, fun _ _ _ => 1⟩ (exBallOk _ exBallTotal) exBallDown_zero phi phi'

example := C191_scale 7 (by norm_num) exBall (fun m g => (m : ℚ) + g + 1) (fun _ _ _ => 1 / 4)
  ⟨1, 2, fun i _ g => (i : ℚ) + g⟩ ⟨1, 1, fun _ _ _ => 1⟩ (fun i g => (i : ℚ) * g) (exBallOk _ exBallTotal) exBallStandard

example := C191_units 100 (by norm_num) exBall (fun m g => (m : ℚ) + g + 1) (fun _ _ _ => 1 / 4)
  ⟨1, 2, fun i _ g => (i : ℚ) + g⟩ ⟨1, 1, fun _ _ _ => 1⟩ (fun i g => (i : ℚ) * g) (exBallOk _ exBallTotal) exBallStandard

example := C191_pi (22 / 21) (by norm_num) exBall (fun m g => (m : ℚ) + g + 1) (fun _ _ _ => 1 / 4)
  ⟨1, 2, fun i _ g => (i : ℚ) + g⟩ ⟨1, 1, fun _ _ _ => 1⟩ (fun i g => (i : ℚ) * g) (exBallOk _ exBallTotal) exBallStandard

/-- A norm that only sees the cells and groups: the flux of the first cell. -/
theorem exSumNormOk : NormOk 3 2 (fun f : ℕ → ℕ → ℚ => ∑ i ∈ range 3, ∑ g ∈ range 2, f i g) where
  local_ f f' h := sum_congr rfl fun i hi => sum_congr rfl fun g hg => h i (mem_range.mp hi) g (mem_range.mp hg)
  mirror f f' h := by
    rw [← sum_range_reflect]
    exact sum_congr rfl fun i hi => sum_congr rfl fun g hg => by
      have := mem_range.mp hi
      rw [h _ (by omega) g (mem_range.mp hg), show 3 - 1 - (3 - 1 - i) = i by omega]

example := C191_power 100 (by norm_num) exBall (fun f : ℕ → ℕ → ℚ => ∑ i ∈ range 3, ∑ g ∈ range 2, f i g)
  (fun m g => (m : ℚ) + g + 1) (fun _ _ _ => 1 / 4) (.matrix fun _ _ _ => 1 / 8) (fun i g => (i : ℚ) + g + 1)
  (exBallOk _ exBallTotal) exBallStandard (fun _ _ _ _ _ => by norm_num) exSumNormOk

example := C192_power_iteration_stops exBall (fun f : ℕ → ℕ → ℚ => ∑ i ∈ range 3, ∑ g ∈ range 2, f i g)
  (fluxConverged2 3 2 (1 / 10 ^ 6)) (fun m g => (m : ℚ) + g + 1) (fun _ _ _ => 1 / 4) (.matrix fun _ _ _ => 1 / 8)
  (fun i g => (i : ℚ) + g + 1) (exBallOk _ exBallTotal)

/-- A ball of one shell and one group. -/
def exPellet : Problem ℚ := { exBall with cells := 1, groups := 1, pi := 1, mm := fun _ => 0 }

theorem exPelletOk : SphereOk exPellet (fun _ _ => 1) where
  sphere := rfl
  mesh := fun g _ => ⟨by show (0 : ℚ) < 1; norm_num, fun _ _ => by show (0 : ℚ) < 1; norm_num, fun _ _ => by
    show (0 : ℚ) ≤ 1; norm_num⟩
  quad := exSphereQuad
  angles := by show 0 < 2; norm_num

/-- Its multiplication factor for one neutron per collision is 7/16. -/
theorem exPelletEigenpair : SphereEigenpair exPellet (fun _ _ => 1) (fun _ _ _ => 0) (fun _ _ _ => 1) (fun _ _ => 1)
    (7 / 16) := by
  intro g hg
  obtain ⟨flux, _, _, _, _, hrun, hval, _⟩ := C76_violation
  obtain ⟨f, hf, hs⟩ := sphere_sweep 1 2 (1 : ℚ) (fun _ => 1) (fun _ => 0) (fun _ => 0) ⟨1, fun _ _ => 1⟩
    ⟨1, fun _ _ => 0⟩ (fun _ => 0) (fun _ => 1) (fun n => if n = 0 then -1 / 2 else 1 / 2) (fun _ => 1 / 2) (fun _ => 0)
    ⟨by norm_num, fun _ _ => by norm_num, fun _ _ => by norm_num⟩ exSphereQuad
  rw [hrun] at hf
  have hff : flux = f := Except.ok.inj hf
  subst hff
  have h2 := sphereFlux_combine (16 / 7) 0 hs hs
  refine sphereFlux_congr h2 (fun n _ i _ => ?_) (fun i _ => ?_) ?_ (fun n _ => ?_) (fun i hi => ?_)
  · simp [exPellet]
  · simp [exPellet]
  · simp
  · simp
  · have : i = 0 := by have : i < 1 := hi; omega
    rw [this, hval]; norm_num

example : ∃ s', powerStep exPellet (fun f => f 0 0) (fun _ _ => 1) (.iso fun _ _ _ => 0) (.matrix fun _ _ _ => 1)
      ⟨fun _ _ => 1, 7 / 16⟩ = .ok s' ∧
    (∀ i < 1, ∀ g < 1, s'.flux i g = 1) ∧ s'.keff = 7 / 16 :=
  C192_eigenpair_kept exPellet (fun f => f 0 0) (fun _ _ => 1) (fun _ _ _ => 0) (.matrix fun _ _ _ => 1) exPelletOk
    (fun _ _ _ _ _ => by norm_num) ⟨fun _ _ => 1, 7 / 16⟩ (fun f h => h 0 (by show 0 < 1; norm_num) 0 (by show 0 < 1; norm_num))
    (by norm_num [totalProduction, exPellet, fissionMatrix]) exPelletEigenpair

/-- The hypotheses of the converse hold for the same state. -/
example : SphereEigenpair exPellet (fun _ _ => 1) (fun _ _ _ => 0) (fun _ _ _ => 1) (fun _ _ => 1) (7 / 16) := by
  obtain ⟨s', h1, h2, h3⟩ := C192_eigenpair_kept exPellet (fun f => f 0 0) (fun _ _ => 1) (fun _ _ _ => 0)
    (.matrix fun _ _ _ => 1) exPelletOk
    (fun _ _ _ _ _ => by norm_num) ⟨fun _ _ => 1, 7 / 16⟩ (fun f h => h 0 (by show 0 < 1; norm_num) 0 (by show 0 < 1; norm_num))
    (by norm_num [totalProduction, exPellet, fissionMatrix]) exPelletEigenpair
  exact C192_fixed_point_is_eigenpair exPellet (fun f => f 0 0) (fun _ _ => 1) (fun _ _ _ => 0)
    (.matrix fun _ _ _ => 1) exPelletOk (fun _ _ _ _ => rfl) (fun _ _ _ _ _ => by norm_num) ⟨fun _ _ => 1, 7 / 16⟩ s' h1 h2 h3
    (by norm_num) (by norm_num [totalProduction, exPellet, fissionMatrix])

end Discrete1.Props
