import Verif.Props.Similar

/-!
# C100-C104: the symmetries, one by one

Each theorem says what happens to the output of `source_iteration`, `timed1d.backward_euler`,
`timed1d.bdf2` and `power_iteration` when the input is mirrored, scaled, measured in another unit of length,
swept in another order, or its materials are renumbered.  The convergence criteria are the coded ones
(`Standard`).
-/

set_option linter.unusedSectionVars false
set_option linter.unusedSimpArgs false

namespace Discrete1.Props

open Finset Discrete1.Spec Discrete1.Slab Discrete1.Tools Discrete1.MultiGroup Discrete1.Drivers Discrete1.Critical

variable {K : Type} [Field K] [LinearOrder K] [IsStrictOrderedRing K]

/-! ## Transformed input -/

/-- The slab turned round: cells, ordinates and boundary types. -/
def mirrorProblem (p : Problem K) : Problem K :=
  { p with
    mm := fun i => p.mm (p.cells - 1 - i)
    dx := fun i => p.dx (p.cells - 1 - i)
    angleX := fun n => -p.angleX n
    bcL := p.bcR
    bcR := p.bcL }

/-- A volume source or a flux `(cells, angles, groups)` turned round. -/
def mirrorArr (N : ℕ) (a : Arr3 K) : Arr3 K := { a with val := fun i n g => a.val (N - 1 - i) n g }

/-- Boundary values with the faces exchanged. -/
def swapFaces (a : Arr3 K) : Arr3 K := { a with val := fun t n g => a.val (1 - t) n g }

def mapTime (f : Arr3 K → Arr3 K) (a : TimeArr K) : TimeArr K := { a with at_ := fun j => f (a.at_ j) }

/-- An array multiplied by a number. -/
def scaleArr (c : K) (a : Arr3 K) : Arr3 K := { a with val := fun i n g => c * a.val i n g }

/-- Lengths multiplied by `s`. -/
def rescaleProblem (s : K) (p : Problem K) : Problem K := { p with dx := fun i => s * p.dx i }

/-- Ordinates and weights listed in the order `π`. -/
def reorderProblem (π : ℕ → ℕ) (p : Problem K) : Problem K :=
  { p with angleX := fun n => p.angleX (π n), angleW := fun n => p.angleW (π n) }

/-- Materials renumbered. -/
def renumberProblem (ρ : ℕ → ℕ) (p : Problem K) : Problem K := { p with mm := fun i => ρ (p.mm i) }

/-- An array with its own ordinate axis in the order `π`; broadcast arrays stay as they are. -/
def reorderArr (π : ℕ → ℕ) (a : Arr3 K) : Arr3 K :=
  { a with val := fun i n g => a.val i (if a.angles = 1 then n else π n) g }

theorem entry_map (f : Arr3 K → Arr3 K) (a : TimeArr K) (j : ℕ) : entry (mapTime f a) j = f (entry a j) := rfl

theorem covers_map (f : Arr3 K → Arr3 K) {a : TimeArr K} {n : ℕ} (h : Covers a n) :
    Covers (mapTime f a) n := h

theorem sourceAt_mirror (N : ℕ) (a : Arr3 K) (i n g : ℕ) :
    sourceAt (mirrorArr N a) i n g = sourceAt a (N - 1 - i) n g := rfl

theorem sourceAt_swap (a : Arr3 K) (t n g : ℕ) : sourceAt (swapFaces a) t n g = sourceAt a (1 - t) n g := rfl

theorem sourceAt_scale (c : K) (a : Arr3 K) (i n g : ℕ) :
    sourceAt (scaleArr c a) i n g = c * sourceAt a i n g := rfl

theorem id_permutes (A : ℕ) : Permutes A id := ⟨fun _ h => h, fun _ _ _ _ h => h⟩

theorem standard_similar {c s : K} {rev : Bool} {p p' : Problem K} (hc : c ≠ 0) (h : Standard p)
    (h1 : p'.convIn = p.convIn) (h2 : p'.convOut = p.convOut) :
    (∀ a a' b b', Image c rev p.cells a a' → Image c rev p.cells b b' → p'.convIn a' b' = p.convIn a b) ∧
    (∀ a a' b b', Image2 c rev p.cells p.groups a a' → Image2 c rev p.cells p.groups b b' →
      p'.convOut a' b' = p.convOut a b) := by
  rw [h1, h2, h.inner, h.outer]
  exact ⟨fun a a' b b' ha hb => fluxConverged_image hc _ ha hb,
    fun a a' b b' ha hb => fluxConverged2_image hc _ ha hb⟩

theorem mirror_similar {p : Problem K} (h : Standard p) : SimilarProblem 1 1 true id p (mirrorProblem p) where
  perm := id_permutes _
  order := Or.inl fun _ _ => rfl
  cells := rfl
  groups := rfl
  angles := rfl
  geometry := rfl
  dx i hi := by simp [mirrorProblem, seen]
  angleX n hn := by simp [mirrorProblem, turned]
  angleW n hn := rfl
  bcL := by simp [mirrorProblem]
  bcR := by simp [mirrorProblem]
  convIn := (standard_similar one_ne_zero h rfl rfl (s := 1)).1
  convOut := (standard_similar one_ne_zero h rfl rfl (s := 1)).2

theorem mirror_xs (p : Problem K) (xsTotal : ℕ → ℕ → K) (xs : ℕ → ℕ → ℕ → K) :
    SimilarXs 1 true p (mirrorProblem p) xsTotal xsTotal xs xs :=
  ⟨fun i hi g hg => by simp [mirrorProblem, seen], fun i hi g hg g' hg' => by simp [mirrorProblem, seen]⟩

theorem mirror_sources (p : Problem K) (ext bnd : Arr3 K) :
    SimilarSources 1 1 true id p ext (mirrorArr p.cells ext) bnd (swapFaces bnd) :=
  ⟨fun i hi n hn g hg => by rw [sourceAt_mirror]; simp [seen],
    fun t ht n hn g hg => by rw [sourceAt_swap]; simp [faceOf]⟩

/-! ## C100: mirror images -/

/-- C100: turning the slab round turns the flux round. -/
theorem C100_mirror (p : Problem K) (xsTotal : ℕ → ℕ → K) (xs : ℕ → ℕ → ℕ → K) (ext bnd : Arr3 K)
    (flux : ℕ → ℕ → K) (hok : ∀ g < p.groups, SlabOk p xsTotal g) (hstd : Standard p) :
    ∃ out out', sourceIteration p xsTotal (.iso xs) ext bnd flux = .ok out ∧
      sourceIteration (mirrorProblem p) xsTotal (.iso xs) (mirrorArr p.cells ext) (swapFaces bnd)
        (fun i g => flux (p.cells - 1 - i) g) = .ok out' ∧
      ∀ i < p.cells, ∀ g < p.groups, out' i g = out (p.cells - 1 - i) g := by
  obtain ⟨o, o', h1, h2, h3⟩ := similar_source_iteration 1 1 true id p (mirrorProblem p) xsTotal xsTotal xs xs
    ext (mirrorArr p.cells ext) bnd (swapFaces bnd) flux (fun i g => flux (p.cells - 1 - i) g) one_pos hok
    (mirror_similar hstd) (mirror_xs p xsTotal xs) (mirror_sources p ext bnd)
    (fun i hi g hg => by simp [seen])
  exact ⟨o, o', h1, h2, fun i hi g hg => by simpa [seen] using h3 i hi g hg⟩

/-- C100 for the usual situation between vacuum boundaries: both calls use the same symmetric quadrature. -/
theorem C100_mirror_vacuum (p : Problem K) (xsTotal : ℕ → ℕ → K) (xs : ℕ → ℕ → ℕ → K) (ext bnd : Arr3 K)
    (flux : ℕ → ℕ → K) (hok : ∀ g < p.groups, SlabOk p xsTotal g) (hstd : Standard p)
    (hsym : Symmetric p.angles p.angleX) (hw : ∀ n < p.angles, p.angleW (p.angles - 1 - n) = p.angleW n)
    (hvac : p.bcL = false ∧ p.bcR = false) :
    ∃ out out', sourceIteration p xsTotal (.iso xs) ext bnd flux = .ok out ∧
      sourceIteration { p with mm := fun i => p.mm (p.cells - 1 - i), dx := fun i => p.dx (p.cells - 1 - i) }
        xsTotal (.iso xs)
        ⟨p.angles, p.groups, fun i n g => sourceAt ext (p.cells - 1 - i) (p.angles - 1 - n) g⟩
        ⟨p.angles, p.groups, fun t n g => sourceAt bnd (1 - t) (p.angles - 1 - n) g⟩
        (fun i g => flux (p.cells - 1 - i) g) = .ok out' ∧
      ∀ i < p.cells, ∀ g < p.groups, out' i g = out (p.cells - 1 - i) g := by
  obtain ⟨o, o', h1, h2, h3⟩ := similar_source_iteration 1 1 true (fun n => p.angles - 1 - n) p
    { p with mm := fun i => p.mm (p.cells - 1 - i), dx := fun i => p.dx (p.cells - 1 - i) }
    xsTotal xsTotal xs xs ext
    ⟨p.angles, p.groups, fun i n g => sourceAt ext (p.cells - 1 - i) (p.angles - 1 - n) g⟩ bnd
    ⟨p.angles, p.groups, fun t n g => sourceAt bnd (1 - t) (p.angles - 1 - n) g⟩
    flux (fun i g => flux (p.cells - 1 - i) g) one_pos hok
    { perm := ⟨fun n hn => by simp only; omega, fun n hn m hm h => by simp only at h; omega⟩
      order := Or.inr hvac
      cells := rfl
      groups := rfl
      angles := rfl
      geometry := rfl
      dx := fun i hi => by simp [seen]
      angleX := fun n hn => by simp [turned, hsym.mirror n hn]
      angleW := fun n hn => (hw n hn).symm
      bcL := by simp [hvac.1, hvac.2]
      bcR := by simp [hvac.1, hvac.2]
      convIn := (standard_similar one_ne_zero hstd rfl rfl (s := 1)).1
      convOut := (standard_similar one_ne_zero hstd rfl rfl (s := 1)).2 }
    ⟨fun i hi g hg => by simp [seen], fun i hi g hg g' hg' => by simp [seen]⟩
    ⟨fun i hi n hn g hg => by rw [sourceAt_full _ hn hg]; simp [seen],
      fun t ht n hn g hg => by rw [sourceAt_full _ hn hg]; simp [faceOf]⟩
    (fun i hi g hg => by simp [seen])
  exact ⟨o, o', h1, h2, fun i hi g hg => by simpa [seen] using h3 i hi g hg⟩

theorem mirror_timed {p : Problem K} (hstd : Standard p) (xsTotal : ℕ → ℕ → K) (xs : ℕ → ℕ → ℕ → K)
    (velocity : ℕ → K) (external boundary : TimeArr K) (steps : ℕ) (dt : K) (init : ℕ → ℕ → ℕ → K) :
    SimilarTimed 1 1 true id p (mirrorProblem p) xsTotal xsTotal xs xs velocity velocity external
      (mapTime (mirrorArr p.cells) external) boundary (mapTime swapFaces boundary) steps dt dt init
      (fun i n g => init (p.cells - 1 - i) n g) where
  problem := mirror_similar hstd
  xs := mirror_xs p xsTotal xs
  speed g _ := (one_mul _).symm
  sources j _ := mirror_sources p _ _
  init i hi n hn g hg := by simp [seen]

/-- C100 for backward Euler. -/
theorem C100_backward_euler (p : Problem K) (xsTotal : ℕ → ℕ → K) (scatter : ℕ → ℕ → ℕ → K)
    (fission : Fission K) (velocity : ℕ → K) (external boundary : TimeArr K) (steps : ℕ) (dt : K)
    (init : ℕ → ℕ → ℕ → K) (hok : TimedOk p xsTotal velocity dt) (hG : 0 < p.groups)
    (hext : Covers external steps) (hbnd : Covers boundary steps) (hstd : Standard p) :
    ∃ out out', backwardEuler p xsTotal (.iso scatter) fission velocity external boundary steps dt init
        = .ok out ∧
      backwardEuler (mirrorProblem p) xsTotal (.iso scatter) fission velocity
        (mapTime (mirrorArr p.cells) external) (mapTime swapFaces boundary) steps dt
        (fun i n g => init (p.cells - 1 - i) n g) = .ok out' ∧
      ∀ j, ∀ i < p.cells, ∀ g < p.groups, out' j i g = out j (p.cells - 1 - i) g := by
  obtain ⟨o, o', h1, h2, h3⟩ := similar_backward_euler 1 1 true id p (mirrorProblem p) xsTotal xsTotal scatter
    scatter fission fission velocity velocity external (mapTime (mirrorArr p.cells) external) boundary
    (mapTime swapFaces boundary) steps dt dt init (fun i n g => init (p.cells - 1 - i) n g) one_pos hok hG hext
    hbnd hext hbnd (mirror_timed hstd xsTotal _ velocity external boundary steps dt init)
  exact ⟨o, o', h1, h2, fun j i hi g hg => by simpa [seen] using h3 j i hi g hg⟩

/-- C100 for BDF2. -/
theorem C100_bdf2 (p : Problem K) (xsTotal : ℕ → ℕ → K) (scatter : ℕ → ℕ → ℕ → K)
    (fission : Fission K) (velocity : ℕ → K) (external boundary : TimeArr K) (steps : ℕ) (dt : K)
    (init : ℕ → ℕ → ℕ → K) (hok : TimedOk p xsTotal velocity dt) (hG : 0 < p.groups)
    (hext : Covers external steps) (hbnd : Covers boundary steps) (hstd : Standard p) :
    ∃ out out', bdf2 p xsTotal (.iso scatter) fission velocity external boundary steps dt init = .ok out ∧
      bdf2 (mirrorProblem p) xsTotal (.iso scatter) fission velocity
        (mapTime (mirrorArr p.cells) external) (mapTime swapFaces boundary) steps dt
        (fun i n g => init (p.cells - 1 - i) n g) = .ok out' ∧
      ∀ j, ∀ i < p.cells, ∀ g < p.groups, out' j i g = out j (p.cells - 1 - i) g := by
  obtain ⟨o, o', h1, h2, h3⟩ := similar_bdf2 1 1 true id p (mirrorProblem p) xsTotal xsTotal scatter
    scatter fission fission velocity velocity external (mapTime (mirrorArr p.cells) external) boundary
    (mapTime swapFaces boundary) steps dt dt init (fun i n g => init (p.cells - 1 - i) n g) one_pos hok hG hext
    hbnd hext hbnd (mirror_timed hstd xsTotal _ velocity external boundary steps dt init)
  exact ⟨o, o', h1, h2, fun j i hi g hg => by simpa [seen] using h3 j i hi g hg⟩

/-- The norm does not depend on the order of the cells and only on the cells and groups of the problem
(as `np.linalg.norm` of the array). -/
structure NormOk (N G : ℕ) (norm : (ℕ → ℕ → K) → K) : Prop where
  local_ : ∀ f f', (∀ i < N, ∀ g < G, f' i g = f i g) → norm f' = norm f
  mirror : ∀ f f', (∀ i < N, ∀ g < G, f' i g = f (N - 1 - i) g) → norm f' = norm f

/-- C100 for the eigenvalue: the mirrored slab has the same multiplication factor, found in the same number
of iterations, and the mirrored flux. -/
theorem C100_power (p : Problem K) (norm : (ℕ → ℕ → K) → K) (xsTotal : ℕ → ℕ → K)
    (scatter : ℕ → ℕ → ℕ → K) (fission : Fission K) (random : ℕ → ℕ → K)
    (hok : ∀ g < p.groups, SlabOk p xsTotal g) (hstd : Standard p) (hF : FissionNonneg p.groups fission)
    (hnorm : NormOk p.cells p.groups norm) :
    ∃ r r' n, powerIteration p norm (fluxConverged2 p.cells p.groups (1 / 10 ^ 6)) xsTotal (.iso scatter)
        fission random = .ok (r, n) ∧
      powerIteration (mirrorProblem p) norm (fluxConverged2 p.cells p.groups (1 / 10 ^ 6)) xsTotal
        (.iso scatter) fission (fun i g => random (p.cells - 1 - i) g) = .ok (r', n) ∧
      r'.keff = r.keff ∧ ∀ i < p.cells, ∀ g < p.groups, r'.flux i g = r.flux (p.cells - 1 - i) g := by
  obtain ⟨r, r', n, h1, h2, h3, h4⟩ := similar_power_iteration 1 true id p (mirrorProblem p) norm norm
    (fluxConverged2 p.cells p.groups (1 / 10 ^ 6)) (fluxConverged2 p.cells p.groups (1 / 10 ^ 6)) xsTotal
    xsTotal scatter scatter fission fission random (fun i g => random (p.cells - 1 - i) g) one_pos hok
    (mirror_similar hstd) (mirror_xs p xsTotal scatter)
    (fun i hi g hg g' hg' => by simp [mirrorProblem, seen]) hF hF
    (fun f f' h => hnorm.mirror f f' fun i hi g hg => by simpa [seen] using h i hi g hg)
    (fun a a' b b' ha hb => fluxConverged2_image one_ne_zero _ ha hb)
    (fun i hi g hg => by simp [seen])
  exact ⟨r, r', n, h1, h2, h4, fun i hi g hg => by simpa [seen] using h3 i hi g hg⟩

/-! ## C101: scaled sources -/

theorem scale_similar {c : K} {p : Problem K} (hc : c ≠ 0) (h : Standard p) :
    SimilarProblem c 1 false id p p where
  perm := id_permutes _
  order := Or.inl fun _ _ => rfl
  cells := rfl
  groups := rfl
  angles := rfl
  geometry := rfl
  dx i hi := by simp [seen]
  angleX n hn := by simp [turned]
  angleW n hn := rfl
  bcL := by simp
  bcR := by simp
  convIn := (standard_similar hc h rfl rfl (s := 1)).1
  convOut := (standard_similar hc h rfl rfl (s := 1)).2

theorem same_xs (p : Problem K) (xsTotal : ℕ → ℕ → K) (xs : ℕ → ℕ → ℕ → K) :
    SimilarXs 1 false p p xsTotal xsTotal xs xs :=
  ⟨fun i hi g hg => by simp [seen], fun i hi g hg g' hg' => by simp [seen]⟩

theorem scale_sources (c : K) (p : Problem K) (ext bnd : Arr3 K) :
    SimilarSources c 1 false id p ext (scaleArr c ext) bnd (scaleArr c bnd) :=
  ⟨fun i hi n hn g hg => by rw [sourceAt_scale]; simp [seen],
    fun t ht n hn g hg => by rw [sourceAt_scale]; simp [faceOf]⟩

/-- C101: multiplying source, boundary values and initial guess by `c ≠ 0` multiplies the flux by `c`,
exactly, with the same iterations. -/
theorem C101_scale (c : K) (hc : c ≠ 0) (p : Problem K) (xsTotal : ℕ → ℕ → K) (xs : ℕ → ℕ → ℕ → K)
    (ext bnd : Arr3 K) (flux : ℕ → ℕ → K) (hok : ∀ g < p.groups, SlabOk p xsTotal g) (hstd : Standard p) :
    ∃ out out', sourceIteration p xsTotal (.iso xs) ext bnd flux = .ok out ∧
      sourceIteration p xsTotal (.iso xs) (scaleArr c ext) (scaleArr c bnd) (fun i g => c * flux i g)
        = .ok out' ∧
      ∀ i < p.cells, ∀ g < p.groups, out' i g = c * out i g := by
  obtain ⟨o, o', h1, h2, h3⟩ := similar_source_iteration c 1 false id p p xsTotal xsTotal xs xs
    ext (scaleArr c ext) bnd (scaleArr c bnd) flux (fun i g => c * flux i g) one_pos hok
    (scale_similar hc hstd) (same_xs p xsTotal xs) (scale_sources c p ext bnd)
    (fun i hi g hg => by simp [seen])
  exact ⟨o, o', h1, h2, fun i hi g hg => by simpa [seen] using h3 i hi g hg⟩

theorem scale_timed {c : K} (hc : c ≠ 0) {p : Problem K} (hstd : Standard p) (xsTotal : ℕ → ℕ → K)
    (xs : ℕ → ℕ → ℕ → K) (velocity : ℕ → K) (external boundary : TimeArr K) (steps : ℕ) (dt : K)
    (init : ℕ → ℕ → ℕ → K) :
    SimilarTimed c 1 false id p p xsTotal xsTotal xs xs velocity velocity external
      (mapTime (scaleArr c) external) boundary (mapTime (scaleArr c) boundary) steps dt dt init
      (fun i n g => c * init i n g) where
  problem := scale_similar hc hstd
  xs := same_xs p xsTotal xs
  speed g _ := (one_mul _).symm
  sources j _ := scale_sources c p _ _
  init i hi n hn g hg := by simp [seen]

/-- C101 for backward Euler. -/
theorem C101_backward_euler (c : K) (hc : c ≠ 0) (p : Problem K) (xsTotal : ℕ → ℕ → K)
    (scatter : ℕ → ℕ → ℕ → K) (fission : Fission K) (velocity : ℕ → K) (external boundary : TimeArr K)
    (steps : ℕ) (dt : K) (init : ℕ → ℕ → ℕ → K) (hok : TimedOk p xsTotal velocity dt) (hG : 0 < p.groups)
    (hext : Covers external steps) (hbnd : Covers boundary steps) (hstd : Standard p) :
    ∃ out out', backwardEuler p xsTotal (.iso scatter) fission velocity external boundary steps dt init
        = .ok out ∧
      backwardEuler p xsTotal (.iso scatter) fission velocity (mapTime (scaleArr c) external)
        (mapTime (scaleArr c) boundary) steps dt (fun i n g => c * init i n g) = .ok out' ∧
      ∀ j, ∀ i < p.cells, ∀ g < p.groups, out' j i g = c * out j i g := by
  obtain ⟨o, o', h1, h2, h3⟩ := similar_backward_euler c 1 false id p p xsTotal xsTotal scatter
    scatter fission fission velocity velocity external (mapTime (scaleArr c) external) boundary
    (mapTime (scaleArr c) boundary) steps dt dt init (fun i n g => c * init i n g) one_pos hok hG hext
    hbnd hext hbnd (scale_timed hc hstd xsTotal _ velocity external boundary steps dt init)
  exact ⟨o, o', h1, h2, fun j i hi g hg => by simpa [seen] using h3 j i hi g hg⟩

/-- C101 for BDF2. -/
theorem C101_bdf2 (c : K) (hc : c ≠ 0) (p : Problem K) (xsTotal : ℕ → ℕ → K)
    (scatter : ℕ → ℕ → ℕ → K) (fission : Fission K) (velocity : ℕ → K) (external boundary : TimeArr K)
    (steps : ℕ) (dt : K) (init : ℕ → ℕ → ℕ → K) (hok : TimedOk p xsTotal velocity dt) (hG : 0 < p.groups)
    (hext : Covers external steps) (hbnd : Covers boundary steps) (hstd : Standard p) :
    ∃ out out', bdf2 p xsTotal (.iso scatter) fission velocity external boundary steps dt init
        = .ok out ∧
      bdf2 p xsTotal (.iso scatter) fission velocity (mapTime (scaleArr c) external)
        (mapTime (scaleArr c) boundary) steps dt (fun i n g => c * init i n g) = .ok out' ∧
      ∀ j, ∀ i < p.cells, ∀ g < p.groups, out' j i g = c * out j i g := by
  obtain ⟨o, o', h1, h2, h3⟩ := similar_bdf2 c 1 false id p p xsTotal xsTotal scatter
    scatter fission fission velocity velocity external (mapTime (scaleArr c) external) boundary
    (mapTime (scaleArr c) boundary) steps dt dt init (fun i n g => c * init i n g) one_pos hok hG hext
    hbnd hext hbnd (scale_timed hc hstd xsTotal _ velocity external boundary steps dt init)
  exact ⟨o, o', h1, h2, fun j i hi g hg => by simpa [seen] using h3 j i hi g hg⟩

/-! ## C102: units -/

theorem rescale_similar {s : K} {p : Problem K} (h : Standard p) :
    SimilarProblem 1 s false id p (rescaleProblem s p) where
  perm := id_permutes _
  order := Or.inl fun _ _ => rfl
  cells := rfl
  groups := rfl
  angles := rfl
  geometry := rfl
  dx i hi := by simp [rescaleProblem, seen]
  angleX n hn := by simp [rescaleProblem, turned]
  angleW n hn := rfl
  bcL := by simp [rescaleProblem]
  bcR := by simp [rescaleProblem]
  convIn := (standard_similar one_ne_zero h rfl rfl (s := s)).1
  convOut := (standard_similar one_ne_zero h rfl rfl (s := s)).2

theorem rescale_xs (s : K) (p : Problem K) (xsTotal : ℕ → ℕ → K) (xs : ℕ → ℕ → ℕ → K) :
    SimilarXs s false p (rescaleProblem s p) xsTotal (fun m g => xsTotal m g / s) xs
      (fun m g g' => xs m g g' / s) :=
  ⟨fun i hi g hg => by simp [rescaleProblem, seen],
    fun i hi g hg g' hg' => by simp [rescaleProblem, seen]⟩

theorem rescale_sources (s : K) (p : Problem K) (ext bnd : Arr3 K) :
    SimilarSources 1 s false id p ext (scaleArr (1 / s) ext) bnd bnd :=
  ⟨fun i hi n hn g hg => by rw [sourceAt_scale]; simp [seen],
    fun t ht n hn g hg => by simp [faceOf]⟩

/-- C102: changing the unit of length (`dx` times `s`; cross sections and source density divided by `s`)
does not change the flux. -/
theorem C102_units (s : K) (hs : 0 < s) (p : Problem K) (xsTotal : ℕ → ℕ → K) (xs : ℕ → ℕ → ℕ → K)
    (ext bnd : Arr3 K) (flux : ℕ → ℕ → K) (hok : ∀ g < p.groups, SlabOk p xsTotal g) (hstd : Standard p) :
    ∃ out out', sourceIteration p xsTotal (.iso xs) ext bnd flux = .ok out ∧
      sourceIteration (rescaleProblem s p) (fun m g => xsTotal m g / s) (.iso fun m g g' => xs m g g' / s)
        (scaleArr (1 / s) ext) bnd flux = .ok out' ∧
      ∀ i < p.cells, ∀ g < p.groups, out' i g = out i g := by
  obtain ⟨o, o', h1, h2, h3⟩ := similar_source_iteration 1 s false id p (rescaleProblem s p) xsTotal _ xs _
    ext (scaleArr (1 / s) ext) bnd bnd flux flux hs hok
    (rescale_similar hstd) (rescale_xs s p xsTotal xs) (rescale_sources s p ext bnd)
    (fun i hi g hg => by simp [seen])
  exact ⟨o, o', h1, h2, fun i hi g hg => by simpa [seen] using h3 i hi g hg⟩

/-- Fission data in the new unit. -/
def scaleFission (s : K) : Fission K → Fission K
  | .matrix f => .matrix fun m g g' => f m g g' / s
  | .vector chi nu => .vector chi fun m g => nu m g / s

theorem fissionMatrix_scale (s : K) (f : Fission K) (m g g' : ℕ) :
    fissionMatrix (scaleFission s f) m g g' = fissionMatrix f m g g' / s := by
  cases f with
  | matrix f => rfl
  | vector chi nu => simp [fissionMatrix, scaleFission, mul_div_assoc]

/-- C102 for time dependent problems: other units of length (`s`) and time (`t`); velocities become
`v s / t`. -/
theorem C102_backward_euler (s t : K) (hs : 0 < s) (ht : 0 < t) (p : Problem K) (xsTotal : ℕ → ℕ → K)
    (scatter : ℕ → ℕ → ℕ → K) (fission : Fission K) (velocity : ℕ → K) (external boundary : TimeArr K)
    (steps : ℕ) (dt : K) (init : ℕ → ℕ → ℕ → K) (hok : TimedOk p xsTotal velocity dt) (hG : 0 < p.groups)
    (hext : Covers external steps) (hbnd : Covers boundary steps) (hstd : Standard p) :
    ∃ out out', backwardEuler p xsTotal (.iso scatter) fission velocity external boundary steps dt init
        = .ok out ∧
      backwardEuler (rescaleProblem s p) (fun m g => xsTotal m g / s)
        (.iso fun m g g' => scatter m g g' / s) (scaleFission s fission) (fun g => velocity g * s / t)
        (mapTime (scaleArr (1 / s)) external) boundary steps (t * dt) init = .ok out' ∧
      ∀ j, ∀ i < p.cells, ∀ g < p.groups, out' j i g = out j i g := by
  obtain ⟨o, o', h1, h2, h3⟩ := similar_backward_euler 1 s false id p (rescaleProblem s p) xsTotal
    (fun m g => xsTotal m g / s) scatter (fun m g g' => scatter m g g' / s) fission (scaleFission s fission) velocity (fun g => velocity g * s / t)
    external (mapTime (scaleArr (1 / s)) external) boundary boundary steps dt (t * dt) init init hs hok hG hext
    hbnd hext hbnd
    { problem := rescale_similar hstd
      xs := by
        have := rescale_xs s p xsTotal (fun m g g' => scatter m g g' + fissionMatrix fission m g g')
        refine ⟨this.total, fun i hi g hg g' hg' => ?_⟩
        rw [fissionMatrix_scale, ← add_div]
        exact this.scatter i hi g hg g' hg'
      speed := fun g _ => by field_simp
      sources := fun j _ => rescale_sources s p _ _
      init := fun i hi n hn g hg => by simp [seen] }
  exact ⟨o, o', h1, h2, fun j i hi g hg => by simpa [seen] using h3 j i hi g hg⟩

/-- C102 for BDF2. -/
theorem C102_bdf2 (s t : K) (hs : 0 < s) (ht : 0 < t) (p : Problem K) (xsTotal : ℕ → ℕ → K)
    (scatter : ℕ → ℕ → ℕ → K) (fission : Fission K) (velocity : ℕ → K) (external boundary : TimeArr K)
    (steps : ℕ) (dt : K) (init : ℕ → ℕ → ℕ → K) (hok : TimedOk p xsTotal velocity dt) (hG : 0 < p.groups)
    (hext : Covers external steps) (hbnd : Covers boundary steps) (hstd : Standard p) :
    ∃ out out', bdf2 p xsTotal (.iso scatter) fission velocity external boundary steps dt init
        = .ok out ∧
      bdf2 (rescaleProblem s p) (fun m g => xsTotal m g / s)
        (.iso fun m g g' => scatter m g g' / s) (scaleFission s fission) (fun g => velocity g * s / t)
        (mapTime (scaleArr (1 / s)) external) boundary steps (t * dt) init = .ok out' ∧
      ∀ j, ∀ i < p.cells, ∀ g < p.groups, out' j i g = out j i g := by
  obtain ⟨o, o', h1, h2, h3⟩ := similar_bdf2 1 s false id p (rescaleProblem s p) xsTotal
    (fun m g => xsTotal m g / s) scatter (fun m g g' => scatter m g g' / s) fission (scaleFission s fission) velocity (fun g => velocity g * s / t)
    external (mapTime (scaleArr (1 / s)) external) boundary boundary steps dt (t * dt) init init hs hok hG hext
    hbnd hext hbnd
    { problem := rescale_similar hstd
      xs := by
        have := rescale_xs s p xsTotal (fun m g g' => scatter m g g' + fissionMatrix fission m g g')
        refine ⟨this.total, fun i hi g hg g' hg' => ?_⟩
        rw [fissionMatrix_scale, ← add_div]
        exact this.scatter i hi g hg g' hg'
      speed := fun g _ => by field_simp
      sources := fun j _ => rescale_sources s p _ _
      init := fun i hi n hn g hg => by simp [seen] }
  exact ⟨o, o', h1, h2, fun j i hi g hg => by simpa [seen] using h3 j i hi g hg⟩

/-- C102 for the eigenvalue: `k` and the flux do not depend on the unit of length. -/
theorem C102_power (s : K) (hs : 0 < s) (p : Problem K) (norm : (ℕ → ℕ → K) → K) (xsTotal : ℕ → ℕ → K)
    (scatter : ℕ → ℕ → ℕ → K) (fission : Fission K) (random : ℕ → ℕ → K)
    (hok : ∀ g < p.groups, SlabOk p xsTotal g) (hstd : Standard p) (hF : FissionNonneg p.groups fission)
    (hnorm : NormOk p.cells p.groups norm) :
    ∃ r r' n, powerIteration p norm (fluxConverged2 p.cells p.groups (1 / 10 ^ 6)) xsTotal (.iso scatter)
        fission random = .ok (r, n) ∧
      powerIteration (rescaleProblem s p) norm (fluxConverged2 p.cells p.groups (1 / 10 ^ 6))
        (fun m g => xsTotal m g / s) (.iso fun m g g' => scatter m g g' / s) (scaleFission s fission) random
        = .ok (r', n) ∧
      r'.keff = r.keff ∧ ∀ i < p.cells, ∀ g < p.groups, r'.flux i g = r.flux i g := by
  obtain ⟨r, r', n, h1, h2, h3, h4⟩ := similar_power_iteration s false id p (rescaleProblem s p) norm norm
    (fluxConverged2 p.cells p.groups (1 / 10 ^ 6)) (fluxConverged2 p.cells p.groups (1 / 10 ^ 6)) xsTotal
    _ scatter _ fission (scaleFission s fission) random random hs hok
    (rescale_similar hstd) (rescale_xs s p xsTotal scatter)
    (fun i hi g hg g' hg' => by rw [fissionMatrix_scale]; simp [rescaleProblem, seen]) hF
    (by
      cases fission with
      | matrix f => exact fun m o ho i hi => div_nonneg (hF m o ho i hi) hs.le
      | vector chi nu => exact hF)
    (fun f f' h => hnorm.local_ f f' fun i hi g hg => by simpa [seen] using h i hi g hg)
    (fun a a' b b' ha hb => fluxConverged2_image one_ne_zero _ ha hb)
    (fun i hi g hg => by simp [seen])
  exact ⟨r, r', n, h1, h2, h4, fun i hi g hg => by simpa [seen] using h3 i hi g hg⟩

/-! ## C103: order of the ordinates -/

theorem reorder_similar {π : ℕ → ℕ} {p : Problem K} (h : Standard p) (hπ : Permutes p.angles π)
    (hvac : p.bcL = false ∧ p.bcR = false) : SimilarProblem 1 1 false π p (reorderProblem π p) where
  perm := hπ
  order := Or.inr hvac
  cells := rfl
  groups := rfl
  angles := rfl
  geometry := rfl
  dx i hi := by simp [reorderProblem, seen]
  angleX n hn := by simp [reorderProblem, turned]
  angleW n hn := rfl
  bcL := by simp [reorderProblem]
  bcR := by simp [reorderProblem]
  convIn := (standard_similar one_ne_zero h rfl rfl (s := 1)).1
  convOut := (standard_similar one_ne_zero h rfl rfl (s := 1)).2

theorem reorder_source {π : ℕ → ℕ} (a : Arr3 K) (i n g : ℕ) :
    sourceAt (reorderArr π a) i n g = sourceAt a i (π n) g := by
  unfold sourceAt reorderArr
  by_cases h : a.angles = 1
  · simp [h]
  · simp [h]

theorem reorder_sources {π : ℕ → ℕ} (p : Problem K) (ext bnd : Arr3 K) :
    SimilarSources 1 1 false π p ext (reorderArr π ext) bnd (reorderArr π bnd) :=
  ⟨fun i hi n hn g hg => by rw [reorder_source]; simp [seen],
    fun t ht n hn g hg => by rw [reorder_source]; simp [faceOf]⟩

/-- C103: between vacuum boundaries the order in which the ordinates (with their weights, sources and
boundary values) are listed does not change the flux. -/
theorem C103_order (π : ℕ → ℕ) (p : Problem K) (xsTotal : ℕ → ℕ → K) (xs : ℕ → ℕ → ℕ → K)
    (ext bnd : Arr3 K) (flux : ℕ → ℕ → K) (hok : ∀ g < p.groups, SlabOk p xsTotal g) (hstd : Standard p)
    (hπ : Permutes p.angles π) (hvac : p.bcL = false ∧ p.bcR = false) :
    ∃ out out', sourceIteration p xsTotal (.iso xs) ext bnd flux = .ok out ∧
      sourceIteration (reorderProblem π p) xsTotal (.iso xs) (reorderArr π ext) (reorderArr π bnd) flux
        = .ok out' ∧
      ∀ i < p.cells, ∀ g < p.groups, out' i g = out i g := by
  obtain ⟨o, o', h1, h2, h3⟩ := similar_source_iteration 1 1 false π p (reorderProblem π p) xsTotal xsTotal
    xs xs ext (reorderArr π ext) bnd (reorderArr π bnd) flux flux one_pos hok
    (reorder_similar hstd hπ hvac)
    ⟨fun i hi g hg => by simp [reorderProblem, seen], fun i hi g hg g' hg' => by simp [reorderProblem, seen]⟩
    (reorder_sources p ext bnd) (fun i hi g hg => by simp [seen])
  exact ⟨o, o', h1, h2, fun i hi g hg => by simpa [seen] using h3 i hi g hg⟩

/-- C103 for backward Euler and BDF2. -/
theorem C103_time (π : ℕ → ℕ) (p : Problem K) (xsTotal : ℕ → ℕ → K)
    (scatter : ℕ → ℕ → ℕ → K) (fission : Fission K) (velocity : ℕ → K) (external boundary : TimeArr K)
    (steps : ℕ) (dt : K) (init : ℕ → ℕ → ℕ → K) (hok : TimedOk p xsTotal velocity dt) (hG : 0 < p.groups)
    (hext : Covers external steps) (hbnd : Covers boundary steps) (hstd : Standard p)
    (hπ : Permutes p.angles π) (hvac : p.bcL = false ∧ p.bcR = false) :
    (∃ out out', backwardEuler p xsTotal (.iso scatter) fission velocity external boundary steps dt init
        = .ok out ∧
      backwardEuler (reorderProblem π p) xsTotal (.iso scatter) fission velocity
        (mapTime (reorderArr π) external) (mapTime (reorderArr π) boundary) steps dt
        (fun i n g => init i (π n) g) = .ok out' ∧
      ∀ j, ∀ i < p.cells, ∀ g < p.groups, out' j i g = out j i g) ∧
    (∃ out out', bdf2 p xsTotal (.iso scatter) fission velocity external boundary steps dt init
        = .ok out ∧
      bdf2 (reorderProblem π p) xsTotal (.iso scatter) fission velocity
        (mapTime (reorderArr π) external) (mapTime (reorderArr π) boundary) steps dt
        (fun i n g => init i (π n) g) = .ok out' ∧
      ∀ j, ∀ i < p.cells, ∀ g < p.groups, out' j i g = out j i g) := by
  have hT : SimilarTimed 1 1 false π p (reorderProblem π p) xsTotal xsTotal
      (fun m g g' => scatter m g g' + fissionMatrix fission m g g')
      (fun m g g' => scatter m g g' + fissionMatrix fission m g g') velocity velocity external
      (mapTime (reorderArr π) external) boundary (mapTime (reorderArr π) boundary) steps dt dt init
      (fun i n g => init i (π n) g) :=
    { problem := reorder_similar hstd hπ hvac
      xs := ⟨fun i hi g hg => by simp [reorderProblem, seen],
        fun i hi g hg g' hg' => by simp [reorderProblem, seen]⟩
      speed := fun g _ => (one_mul _).symm
      sources := fun j _ => reorder_sources p _ _
      init := fun i hi n hn g hg => by simp [seen] }
  obtain ⟨o, o', h1, h2, h3⟩ := similar_backward_euler 1 1 false π p (reorderProblem π p) xsTotal xsTotal
    scatter scatter fission fission velocity velocity external (mapTime (reorderArr π) external) boundary
    (mapTime (reorderArr π) boundary) steps dt dt init (fun i n g => init i (π n) g) one_pos hok hG hext
    hbnd hext hbnd hT
  obtain ⟨u, u', k1, k2, k3⟩ := similar_bdf2 1 1 false π p (reorderProblem π p) xsTotal xsTotal
    scatter scatter fission fission velocity velocity external (mapTime (reorderArr π) external) boundary
    (mapTime (reorderArr π) boundary) steps dt dt init (fun i n g => init i (π n) g) one_pos hok hG hext
    hbnd hext hbnd hT
  exact ⟨⟨o, o', h1, h2, fun j i hi g hg => by simpa [seen] using h3 j i hi g hg⟩,
    ⟨u, u', k1, k2, fun j i hi g hg => by simpa [seen] using k3 j i hi g hg⟩⟩

/-- C103 for the eigenvalue. -/
theorem C103_power (π : ℕ → ℕ) (p : Problem K) (norm : (ℕ → ℕ → K) → K) (xsTotal : ℕ → ℕ → K)
    (scatter : ℕ → ℕ → ℕ → K) (fission : Fission K) (random : ℕ → ℕ → K)
    (hok : ∀ g < p.groups, SlabOk p xsTotal g) (hstd : Standard p) (hF : FissionNonneg p.groups fission)
    (hnorm : NormOk p.cells p.groups norm) (hπ : Permutes p.angles π)
    (hvac : p.bcL = false ∧ p.bcR = false) :
    ∃ r r' n, powerIteration p norm (fluxConverged2 p.cells p.groups (1 / 10 ^ 6)) xsTotal (.iso scatter)
        fission random = .ok (r, n) ∧
      powerIteration (reorderProblem π p) norm (fluxConverged2 p.cells p.groups (1 / 10 ^ 6)) xsTotal
        (.iso scatter) fission random = .ok (r', n) ∧
      r'.keff = r.keff ∧ ∀ i < p.cells, ∀ g < p.groups, r'.flux i g = r.flux i g := by
  obtain ⟨r, r', n, h1, h2, h3, h4⟩ := similar_power_iteration 1 false π p (reorderProblem π p) norm norm
    (fluxConverged2 p.cells p.groups (1 / 10 ^ 6)) (fluxConverged2 p.cells p.groups (1 / 10 ^ 6)) xsTotal
    xsTotal scatter scatter fission fission random random one_pos hok
    (reorder_similar hstd hπ hvac)
    ⟨fun i hi g hg => by simp [reorderProblem, seen], fun i hi g hg g' hg' => by simp [reorderProblem, seen]⟩
    (fun i hi g hg g' hg' => by simp [reorderProblem, seen]) hF hF
    (fun f f' h => hnorm.local_ f f' fun i hi g hg => by simpa [seen] using h i hi g hg)
    (fun a a' b b' ha hb => fluxConverged2_image one_ne_zero _ ha hb)
    (fun i hi g hg => by simp [seen])
  exact ⟨r, r', n, h1, h2, h4, fun i hi g hg => by simpa [seen] using h3 i hi g hg⟩

/-! ## C104: material numbers -/

theorem renumber_similar {ρ : ℕ → ℕ} {p : Problem K} (h : Standard p) :
    SimilarProblem 1 1 false id p (renumberProblem ρ p) where
  perm := id_permutes _
  order := Or.inl fun _ _ => rfl
  cells := rfl
  groups := rfl
  angles := rfl
  geometry := rfl
  dx i hi := by simp [renumberProblem, seen]
  angleX n hn := by simp [renumberProblem, turned]
  angleW n hn := rfl
  bcL := by simp [renumberProblem]
  bcR := by simp [renumberProblem]
  convIn := (standard_similar one_ne_zero h rfl rfl (s := 1)).1
  convOut := (standard_similar one_ne_zero h rfl rfl (s := 1)).2

/-- The cross-section tables of the renumbered problem hold, under the new numbers, what the old ones hold
under the old numbers - for the materials that occur. -/
structure Renumbered (ρ : ℕ → ℕ) (p : Problem K) (xsTotal xsTotal' : ℕ → ℕ → K) (xs xs' : ℕ → ℕ → ℕ → K) :
    Prop where
  total : ∀ i < p.cells, ∀ g < p.groups, xsTotal' (ρ (p.mm i)) g = xsTotal (p.mm i) g
  scatter : ∀ i < p.cells, ∀ g < p.groups, ∀ g' < p.groups, xs' (ρ (p.mm i)) g g' = xs (p.mm i) g g'

theorem Renumbered.similar {ρ : ℕ → ℕ} {p : Problem K} {xsTotal xsTotal' : ℕ → ℕ → K}
    {xs xs' : ℕ → ℕ → ℕ → K} (h : Renumbered ρ p xsTotal xsTotal' xs xs') :
    SimilarXs 1 false p (renumberProblem ρ p) xsTotal xsTotal' xs xs' :=
  ⟨fun i hi g hg => by simp [renumberProblem, seen, h.total i hi g hg],
    fun i hi g hg g' hg' => by simp [renumberProblem, seen, h.scatter i hi g hg g' hg']⟩

theorem same_sources (p : Problem K) (ext bnd : Arr3 K) : SimilarSources 1 1 false id p ext ext bnd bnd :=
  ⟨fun i hi n hn g hg => by simp [seen], fun t ht n hn g hg => by simp [faceOf]⟩

/-- C104: renumbering the materials, splitting a material into two identical ones or adding unused ones does
not change the flux (`ρ` need not be injective on unused materials, and equal materials may be merged). -/
theorem C104_materials (ρ : ℕ → ℕ) (p : Problem K) (xsTotal xsTotal' : ℕ → ℕ → K) (xs xs' : ℕ → ℕ → ℕ → K)
    (ext bnd : Arr3 K) (flux : ℕ → ℕ → K) (hok : ∀ g < p.groups, SlabOk p xsTotal g) (hstd : Standard p)
    (hρ : Renumbered ρ p xsTotal xsTotal' xs xs') :
    ∃ out out', sourceIteration p xsTotal (.iso xs) ext bnd flux = .ok out ∧
      sourceIteration (renumberProblem ρ p) xsTotal' (.iso xs') ext bnd flux = .ok out' ∧
      ∀ i < p.cells, ∀ g < p.groups, out' i g = out i g := by
  obtain ⟨o, o', h1, h2, h3⟩ := similar_source_iteration 1 1 false id p (renumberProblem ρ p) xsTotal xsTotal'
    xs xs' ext ext bnd bnd flux flux one_pos hok (renumber_similar hstd) hρ.similar
    (same_sources p ext bnd) (fun i hi g hg => by simp [seen])
  exact ⟨o, o', h1, h2, fun i hi g hg => by simpa [seen] using h3 i hi g hg⟩

/-- C104 for backward Euler and BDF2. -/
theorem C104_time (ρ : ℕ → ℕ) (p : Problem K) (xsTotal xsTotal' : ℕ → ℕ → K)
    (scatter scatter' : ℕ → ℕ → ℕ → K) (fission fission' : Fission K) (velocity : ℕ → K)
    (external boundary : TimeArr K) (steps : ℕ) (dt : K) (init : ℕ → ℕ → ℕ → K)
    (hok : TimedOk p xsTotal velocity dt) (hG : 0 < p.groups)
    (hext : Covers external steps) (hbnd : Covers boundary steps) (hstd : Standard p)
    (hρ : Renumbered ρ p xsTotal xsTotal' scatter scatter')
    (hF : ∀ i < p.cells, ∀ g < p.groups, ∀ g' < p.groups,
      fissionMatrix fission' (ρ (p.mm i)) g g' = fissionMatrix fission (p.mm i) g g') :
    (∃ out out', backwardEuler p xsTotal (.iso scatter) fission velocity external boundary steps dt init
        = .ok out ∧
      backwardEuler (renumberProblem ρ p) xsTotal' (.iso scatter') fission' velocity external boundary steps
        dt init = .ok out' ∧
      ∀ j, ∀ i < p.cells, ∀ g < p.groups, out' j i g = out j i g) ∧
    (∃ out out', bdf2 p xsTotal (.iso scatter) fission velocity external boundary steps dt init = .ok out ∧
      bdf2 (renumberProblem ρ p) xsTotal' (.iso scatter') fission' velocity external boundary steps
        dt init = .ok out' ∧
      ∀ j, ∀ i < p.cells, ∀ g < p.groups, out' j i g = out j i g) := by
  have hT : SimilarTimed 1 1 false id p (renumberProblem ρ p) xsTotal xsTotal'
      (fun m g g' => scatter m g g' + fissionMatrix fission m g g')
      (fun m g g' => scatter' m g g' + fissionMatrix fission' m g g') velocity velocity external
      external boundary boundary steps dt dt init init :=
    { problem := renumber_similar hstd
      xs := Renumbered.similar ⟨hρ.total, fun i hi g hg g' hg' => by
        rw [hρ.scatter i hi g hg g' hg', hF i hi g hg g' hg']⟩
      speed := fun g _ => (one_mul _).symm
      sources := fun j _ => same_sources p _ _
      init := fun i hi n hn g hg => by simp [seen] }
  obtain ⟨o, o', h1, h2, h3⟩ := similar_backward_euler 1 1 false id p (renumberProblem ρ p) xsTotal xsTotal'
    scatter scatter' fission fission' velocity velocity external external boundary
    boundary steps dt dt init init one_pos hok hG hext hbnd hext hbnd hT
  obtain ⟨u, u', k1, k2, k3⟩ := similar_bdf2 1 1 false id p (renumberProblem ρ p) xsTotal xsTotal'
    scatter scatter' fission fission' velocity velocity external external boundary
    boundary steps dt dt init init one_pos hok hG hext hbnd hext hbnd hT
  exact ⟨⟨o, o', h1, h2, fun j i hi g hg => by simpa [seen] using h3 j i hi g hg⟩,
    ⟨u, u', k1, k2, fun j i hi g hg => by simpa [seen] using k3 j i hi g hg⟩⟩

/-- C104 for the eigenvalue. -/
theorem C104_power (ρ : ℕ → ℕ) (p : Problem K) (norm : (ℕ → ℕ → K) → K) (xsTotal xsTotal' : ℕ → ℕ → K)
    (scatter scatter' : ℕ → ℕ → ℕ → K) (fission fission' : Fission K) (random : ℕ → ℕ → K)
    (hok : ∀ g < p.groups, SlabOk p xsTotal g) (hstd : Standard p)
    (hpos : FissionNonneg p.groups fission) (hpos' : FissionNonneg p.groups fission')
    (hnorm : NormOk p.cells p.groups norm) (hρ : Renumbered ρ p xsTotal xsTotal' scatter scatter')
    (hF : ∀ i < p.cells, ∀ g < p.groups, ∀ g' < p.groups,
      fissionMatrix fission' (ρ (p.mm i)) g g' = fissionMatrix fission (p.mm i) g g') :
    ∃ r r' n, powerIteration p norm (fluxConverged2 p.cells p.groups (1 / 10 ^ 6)) xsTotal (.iso scatter)
        fission random = .ok (r, n) ∧
      powerIteration (renumberProblem ρ p) norm (fluxConverged2 p.cells p.groups (1 / 10 ^ 6)) xsTotal'
        (.iso scatter') fission' random = .ok (r', n) ∧
      r'.keff = r.keff ∧ ∀ i < p.cells, ∀ g < p.groups, r'.flux i g = r.flux i g := by
  obtain ⟨r, r', n, h1, h2, h3, h4⟩ := similar_power_iteration 1 false id p (renumberProblem ρ p) norm norm
    (fluxConverged2 p.cells p.groups (1 / 10 ^ 6)) (fluxConverged2 p.cells p.groups (1 / 10 ^ 6)) xsTotal
    xsTotal' scatter scatter' fission fission' random random one_pos hok
    (renumber_similar hstd) hρ.similar
    (fun i hi g hg g' hg' => by simp [renumberProblem, seen, hF i hi g hg g' hg']) hpos hpos'
    (fun f f' h => hnorm.local_ f f' fun i hi g hg => by simpa [seen] using h i hi g hg)
    (fun a a' b b' ha hb => fluxConverged2_image one_ne_zero _ ha hb)
    (fun i hi g hg => by simp [seen])
  exact ⟨r, r', n, h1, h2, h4, fun i hi g hg => by simpa [seen] using h3 i hi g hg⟩

/-! ## The Euclidean norm and examples -/

/-- The norm the code uses is one of those. -/
theorem frobenius_normOk (N G : ℕ) : NormOk N G (frobenius N G) := by
  refine ⟨fun f f' h => ?_, fun f f' h => ?_⟩
  · unfold frobenius
    congr 1
    exact sum_congr rfl fun i hi => sum_congr rfl fun g hg => by
      rw [h i (mem_range.mp hi) g (mem_range.mp hg)]
  · unfold frobenius
    congr 1
    rw [← (seen_permutes true N).sum (fun i => ∑ g ∈ range G, f i g ^ 2)]
    exact sum_congr rfl fun i hi => sum_congr rfl fun g hg => by
      rw [h i (mem_range.mp hi) g (mem_range.mp hg)]; simp [seen]

/-- The two reflecting orderings of `angular_x` are mirror images: for a quadrature set closed under
`mu -> -mu`, the ordinates returned for `bc_x = [0, 1]` are the negatives of those for `[1, 0]`, with the same
weights - the relation between the two calls in `C100_mirror`. -/
theorem C100_angles (gauss : List (K × K)) (hnd : (gauss.map Prod.fst).Nodup)
    (hsym : (gauss.map fun q => (-q.1, q.2)).Perm gauss) :
    ∃ a b, Setup.angularX gauss (.list 1 0) = .ok a ∧ Setup.angularX gauss (.list 0 1) = .ok b ∧
      b = a.map fun q => (-q.1, q.2) := by
  set g := gauss.map fun p => (p.1, p.2 / (gauss.map (·.2)).sum) with hg
  set s := Setup.sortPairs g with hs
  have hperm : s.Perm g := sortPairs_perm g
  have hfst : g.map (·.1) = gauss.map (·.1) := by rw [hg, List.map_map]; rfl
  have hndS : (s.map (·.1)).Nodup := ((hperm.map _).nodup_iff).mpr (hfst ▸ hnd)
  have hlt : s.Pairwise fun a b => a.1 < b.1 := by
    have h1 := sortPairs_sorted g
    have h2 : s.Pairwise fun a b => a.1 ≠ b.1 := List.pairwise_map.mp hndS
    exact (h1.and h2).imp fun h => lt_of_le_of_ne h.1 h.2
  have hsymg : (g.map fun p => (-p.1, p.2)).Perm g := by
    rw [hg, List.map_map]
    have := hsym.map fun p : K × K => (p.1, p.2 / (gauss.map (·.2)).sum)
    rw [List.map_map] at this
    exact this
  refine ⟨s, s.reverse, rfl, rfl, ?_⟩
  refine List.Perm.eq_of_pairwise (le := fun a b : K × K => b.1 < a.1) (fun a b _ _ h1 h2 =>
    absurd h1 (lt_asymm h2)) ?_ ?_ ?_
  · rw [List.pairwise_reverse]; exact hlt
  · rw [List.pairwise_map]; exact hlt.imp fun h => neg_lt_neg h
  · exact ((List.reverse_perm s).trans hperm).trans (((hperm.map _).trans hsymg).symm)

/-- The example problem with the criteria of the code. -/
def exStd : Problem ℚ :=
  { exProblem with convIn := fluxConverged 3 (1 / 10 ^ 12), convOut := fluxConverged2 3 2 (1 / 10 ^ 8) }

/-- The same between vacuum boundaries. -/
def exVac : Problem ℚ := { exStd with bcL := false }

theorem exStdOk (g : ℕ) : SlabOk exStd exTotal g := ⟨rfl, (exOk g).nonzero, (exOk g).phys⟩
theorem exVacOk (g : ℕ) : SlabOk exVac exTotal g := ⟨rfl, (exOk g).nonzero, (exOk g).phys⟩
theorem exStdStandard : Standard exStd := ⟨rfl, rfl⟩
theorem exVacStandard : Standard exVac := ⟨rfl, rfl⟩
theorem exStdTimed : TimedOk exStd exTotal (fun g => (g : ℚ) + 1) (1 / 10) :=
  ⟨fun g _ => exStdOk g, exTimed.angles, exTimed.velocity, exTimed.dt⟩
theorem exVacTimed : TimedOk exVac exTotal (fun g => (g : ℚ) + 1) (1 / 10) :=
  ⟨fun g _ => exVacOk g, exTimed.angles, exTimed.velocity, exTimed.dt⟩

/-- A norm on the example problem (largest absolute value up to a factor: the sum of the absolute values). -/
def exNorm (f : ℕ → ℕ → ℚ) : ℚ := ∑ i ∈ range 3, ∑ g ∈ range 2, |f i g|

theorem exNormOk : NormOk 3 2 exNorm := by
  refine ⟨fun f f' h => sum_congr rfl fun i hi => sum_congr rfl fun g hg => by
      rw [h i (mem_range.mp hi) g (mem_range.mp hg)], fun f f' h => ?_⟩
  unfold exNorm
  rw [← (seen_permutes true 3).sum (fun i => ∑ g ∈ range 2, |f i g|)]
  exact sum_congr rfl fun i hi => sum_congr rfl fun g hg => by
    rw [h i (mem_range.mp hi) g (mem_range.mp hg)]; simp [seen]

example := C100_mirror exStd exTotal (fun _ _ _ => 1 / 4) ⟨1, 1, fun i _ _ => (i : ℚ)⟩
  ⟨1, 1, fun t _ _ => (t : ℚ)⟩ (fun i g => (i : ℚ) + g) (fun g _ => exStdOk g) exStdStandard

example := C100_mirror_vacuum exVac exTotal (fun _ _ _ => 1 / 4) ⟨1, 1, fun i _ _ => (i : ℚ)⟩
  ⟨1, 1, fun t _ _ => (t : ℚ)⟩ (fun i g => (i : ℚ) + g) (fun g _ => exVacOk g) exVacStandard
  ⟨fun n hn => by
    have hn : n < 4 := hn
    interval_cases n <;> simp [exVac, exStd, exProblem] <;> norm_num, (exOk 0).nonzero⟩ (fun _ _ => rfl)
  ⟨rfl, rfl⟩

example := C100_backward_euler exStd exTotal (fun _ _ _ => 1 / 4) (.matrix fun _ _ _ => 1 / 8)
  (fun g => (g : ℚ) + 1) exExternal exBoundary 3 (1 / 10) (fun i _ _ => (i : ℚ)) exStdTimed
  (by show 0 < 2; omega) (Or.inr (le_refl _)) (Or.inl rfl) exStdStandard

example := C100_bdf2 exStd exTotal (fun _ _ _ => 1 / 4) (.matrix fun _ _ _ => 1 / 8)
  (fun g => (g : ℚ) + 1) exExternal exBoundary 3 (1 / 10) (fun i _ _ => (i : ℚ)) exStdTimed
  (by show 0 < 2; omega) (Or.inr (le_refl _)) (Or.inl rfl) exStdStandard

example := C100_power exStd exNorm exTotal (fun _ _ _ => 1 / 4) (.matrix fun _ _ _ => 1 / 8)
  (fun i g => (i : ℚ) + g + 1) (fun g _ => exStdOk g) exStdStandard
  (fun _ _ _ _ _ => by norm_num) exNormOk

example := C101_scale 7 (by norm_num) exStd exTotal (fun _ _ _ => 1 / 4) ⟨1, 1, fun i _ _ => (i : ℚ)⟩
  ⟨1, 1, fun t _ _ => (t : ℚ)⟩ (fun i g => (i : ℚ) + g) (fun g _ => exStdOk g) exStdStandard

example := C101_backward_euler 7 (by norm_num) exStd exTotal (fun _ _ _ => 1 / 4)
  (.matrix fun _ _ _ => 1 / 8) (fun g => (g : ℚ) + 1) exExternal exBoundary 3 (1 / 10)
  (fun i _ _ => (i : ℚ)) exStdTimed (by show 0 < 2; omega) (Or.inr (le_refl _)) (Or.inl rfl) exStdStandard

example := C101_bdf2 7 (by norm_num) exStd exTotal (fun _ _ _ => 1 / 4)
  (.matrix fun _ _ _ => 1 / 8) (fun g => (g : ℚ) + 1) exExternal exBoundary 3 (1 / 10)
  (fun i _ _ => (i : ℚ)) exStdTimed (by show 0 < 2; omega) (Or.inr (le_refl _)) (Or.inl rfl) exStdStandard

example := C102_units 100 (by norm_num) exStd exTotal (fun _ _ _ => 1 / 4) ⟨1, 1, fun i _ _ => (i : ℚ)⟩
  ⟨1, 1, fun t _ _ => (t : ℚ)⟩ (fun i g => (i : ℚ) + g) (fun g _ => exStdOk g) exStdStandard

example := C102_backward_euler 100 60 (by norm_num) (by norm_num) exStd exTotal (fun _ _ _ => 1 / 4)
  (.matrix fun _ _ _ => 1 / 8) (fun g => (g : ℚ) + 1) exExternal exBoundary 3 (1 / 10)
  (fun i _ _ => (i : ℚ)) exStdTimed (by show 0 < 2; omega) (Or.inr (le_refl _)) (Or.inl rfl) exStdStandard

example := C102_bdf2 100 60 (by norm_num) (by norm_num) exStd exTotal (fun _ _ _ => 1 / 4)
  (.matrix fun _ _ _ => 1 / 8) (fun g => (g : ℚ) + 1) exExternal exBoundary 3 (1 / 10)
  (fun i _ _ => (i : ℚ)) exStdTimed (by show 0 < 2; omega) (Or.inr (le_refl _)) (Or.inl rfl) exStdStandard

example := C102_power 100 (by norm_num) exStd exNorm exTotal (fun _ _ _ => 1 / 4)
  (.matrix fun _ _ _ => 1 / 8) (fun i g => (i : ℚ) + g + 1) (fun g _ => exStdOk g) exStdStandard
  (fun _ _ _ _ _ => by norm_num) exNormOk

/-- Exchange the first two ordinates. -/
theorem exSwap : Permutes 4 (Equiv.swap 0 1) := by
  refine ⟨fun n hn => ?_, fun n _ m _ h => (Equiv.swap 0 1).injective h⟩
  interval_cases n <;> decide

example := C103_order (Equiv.swap 0 1) exVac exTotal (fun _ _ _ => 1 / 4) ⟨1, 1, fun i _ _ => (i : ℚ)⟩
  ⟨1, 1, fun t _ _ => (t : ℚ)⟩ (fun i g => (i : ℚ) + g) (fun g _ => exVacOk g) exVacStandard exSwap
  ⟨rfl, rfl⟩

example := C103_time (Equiv.swap 0 1) exVac exTotal (fun _ _ _ => 1 / 4)
  (.matrix fun _ _ _ => 1 / 8) (fun g => (g : ℚ) + 1) exExternal exBoundary 3 (1 / 10)
  (fun i _ _ => (i : ℚ)) exVacTimed (by show 0 < 2; omega) (Or.inr (le_refl _)) (Or.inl rfl) exVacStandard
  exSwap ⟨rfl, rfl⟩

example := C103_power (Equiv.swap 0 1) exVac exNorm exTotal (fun _ _ _ => 1 / 4)
  (.matrix fun _ _ _ => 1 / 8) (fun i g => (i : ℚ) + g + 1) (fun g _ => exVacOk g) exVacStandard
  (fun _ _ _ _ _ => by norm_num) exNormOk exSwap ⟨rfl, rfl⟩

/-- Numbering the materials from five. -/
theorem exRenumbered : Renumbered (fun m => m + 5) exStd exTotal (fun m g => exTotal (m - 5) g)
    (fun m _ _ => (m : ℚ) / 4) (fun m _ _ => ((m - 5 : ℕ) : ℚ) / 4) :=
  ⟨fun i _ g _ => by simp, fun i _ g _ g' _ => by simp⟩

example := C104_materials (fun m => m + 5) exStd exTotal _ _ _ ⟨1, 1, fun i _ _ => (i : ℚ)⟩
  ⟨1, 1, fun t _ _ => (t : ℚ)⟩ (fun i g => (i : ℚ) + g) (fun g _ => exStdOk g) exStdStandard exRenumbered

example := C104_time (fun m => m + 5) exStd exTotal _ _ _ (.matrix fun _ _ _ => 1 / 8)
  (.vector (fun _ _ => 1 / 8) fun _ _ => 1) (fun g => (g : ℚ) + 1) exExternal exBoundary 3 (1 / 10)
  (fun i _ _ => (i : ℚ)) exStdTimed (by show 0 < 2; omega) (Or.inr (le_refl _)) (Or.inl rfl) exStdStandard
  exRenumbered (fun _ _ _ _ _ _ => by simp [fissionMatrix])

example := C104_power (fun m => m + 5) exStd exNorm exTotal _ _ _ (.matrix fun _ _ _ => 1 / 8)
  (.vector (fun _ _ => 1 / 8) fun _ _ => 1) (fun i g => (i : ℚ) + g + 1) (fun g _ => exStdOk g)
  exStdStandard (fun _ _ _ _ _ => by norm_num) (fun _ _ _ => by norm_num) exNormOk exRenumbered
  (fun _ _ _ _ _ _ => by simp [fissionMatrix])

example : ∃ a b, Setup.angularX [((-1 : ℚ), 1), (1, 1)] (.list 1 0) = .ok a ∧
    Setup.angularX [((-1 : ℚ), 1), (1, 1)] (.list 0 1) = .ok b ∧ b = a.map fun q => (-q.1, q.2) :=
  C100_angles _ (by decide) (by decide)

/-! ## Anisotropic scattering -/

/-- C100 with anisotropic scattering: the odd Legendre moments change sign under reflection and the flux is
still turned round. -/
theorem C100_aniso (p : Problem K) (L : ℕ) (xsTotal : ℕ → ℕ → K) (xs : ℕ → ℕ → ℕ → ℕ → K) (ext bnd : Arr3 K)
    (flux : ℕ → ℕ → K) (hok : ∀ g < p.groups, SlabOk p xsTotal g) (hstd : Standard p) :
    ∃ out out', sourceIteration p xsTotal (.aniso L xs) ext bnd flux = .ok out ∧
      sourceIteration (mirrorProblem p) xsTotal (.aniso L xs) (mirrorArr p.cells ext) (swapFaces bnd)
        (fun i g => flux (p.cells - 1 - i) g) = .ok out' ∧
      ∀ i < p.cells, ∀ g < p.groups, out' i g = out (p.cells - 1 - i) g := by
  obtain ⟨o, o', h1, h2, h3⟩ := similar_source_iteration_aniso 1 1 true id p (mirrorProblem p) L xsTotal xsTotal
    xs xs ext (mirrorArr p.cells ext) bnd (swapFaces bnd) flux (fun i g => flux (p.cells - 1 - i) g) one_pos hok
    (mirror_similar hstd) ⟨fun i hi g hg => by simp [mirrorProblem, seen],
      fun i hi g hg g' hg' => by simp [mirrorProblem, seen],
      fun i hi g hg l hl => by simp [mirrorProblem, seen]⟩ (mirror_sources p ext bnd)
    (fun i hi g hg => by simp [seen])
  exact ⟨o, o', h1, h2, fun i hi g hg => by simpa [seen] using h3 i hi g hg⟩

/-- C101 with anisotropic scattering. -/
theorem C101_aniso (c : K) (hc : c ≠ 0) (p : Problem K) (L : ℕ) (xsTotal : ℕ → ℕ → K)
    (xs : ℕ → ℕ → ℕ → ℕ → K) (ext bnd : Arr3 K) (flux : ℕ → ℕ → K)
    (hok : ∀ g < p.groups, SlabOk p xsTotal g) (hstd : Standard p) :
    ∃ out out', sourceIteration p xsTotal (.aniso L xs) ext bnd flux = .ok out ∧
      sourceIteration p xsTotal (.aniso L xs) (scaleArr c ext) (scaleArr c bnd) (fun i g => c * flux i g)
        = .ok out' ∧
      ∀ i < p.cells, ∀ g < p.groups, out' i g = c * out i g := by
  obtain ⟨o, o', h1, h2, h3⟩ := similar_source_iteration_aniso c 1 false id p p L xsTotal xsTotal xs xs
    ext (scaleArr c ext) bnd (scaleArr c bnd) flux (fun i g => c * flux i g) one_pos hok
    (scale_similar hc hstd) ⟨fun i hi g hg => by simp [seen],
      fun i hi g hg g' hg' => by simp [seen],
      fun i hi g hg l hl => by simp [seen]⟩ (scale_sources c p ext bnd)
    (fun i hi g hg => by simp [seen])
  exact ⟨o, o', h1, h2, fun i hi g hg => by simpa [seen] using h3 i hi g hg⟩

/-- C102 with anisotropic scattering. -/
theorem C102_aniso (s : K) (hs : 0 < s) (p : Problem K) (L : ℕ) (xsTotal : ℕ → ℕ → K)
    (xs : ℕ → ℕ → ℕ → ℕ → K) (ext bnd : Arr3 K) (flux : ℕ → ℕ → K)
    (hok : ∀ g < p.groups, SlabOk p xsTotal g) (hstd : Standard p) :
    ∃ out out', sourceIteration p xsTotal (.aniso L xs) ext bnd flux = .ok out ∧
      sourceIteration (rescaleProblem s p) (fun m g => xsTotal m g / s)
        (.aniso L fun m g g' l => xs m g g' l / s) (scaleArr (1 / s) ext) bnd flux = .ok out' ∧
      ∀ i < p.cells, ∀ g < p.groups, out' i g = out i g := by
  obtain ⟨o, o', h1, h2, h3⟩ := similar_source_iteration_aniso 1 s false id p (rescaleProblem s p) L xsTotal
    (fun m g => xsTotal m g / s) xs (fun m g g' l => xs m g g' l / s)
    ext (scaleArr (1 / s) ext) bnd bnd flux flux hs hok
    (rescale_similar hstd) ⟨fun i hi g hg => by simp [rescaleProblem, seen],
      fun i hi g hg g' hg' => by simp [rescaleProblem, seen],
      fun i hi g hg l hl => by simp [rescaleProblem, seen]⟩ (rescale_sources s p ext bnd)
    (fun i hi g hg => by simp [seen])
  exact ⟨o, o', h1, h2, fun i hi g hg => by simpa [seen] using h3 i hi g hg⟩

/-- C103 with anisotropic scattering. -/
theorem C103_aniso (π : ℕ → ℕ) (p : Problem K) (L : ℕ) (xsTotal : ℕ → ℕ → K) (xs : ℕ → ℕ → ℕ → ℕ → K)
    (ext bnd : Arr3 K) (flux : ℕ → ℕ → K) (hok : ∀ g < p.groups, SlabOk p xsTotal g) (hstd : Standard p)
    (hπ : Permutes p.angles π) (hvac : p.bcL = false ∧ p.bcR = false) :
    ∃ out out', sourceIteration p xsTotal (.aniso L xs) ext bnd flux = .ok out ∧
      sourceIteration (reorderProblem π p) xsTotal (.aniso L xs) (reorderArr π ext) (reorderArr π bnd) flux
        = .ok out' ∧
      ∀ i < p.cells, ∀ g < p.groups, out' i g = out i g := by
  obtain ⟨o, o', h1, h2, h3⟩ := similar_source_iteration_aniso 1 1 false π p (reorderProblem π p) L xsTotal
    xsTotal xs xs ext (reorderArr π ext) bnd (reorderArr π bnd) flux flux one_pos hok
    (reorder_similar hstd hπ hvac)
    ⟨fun i hi g hg => by simp [reorderProblem, seen], fun i hi g hg g' hg' => by simp [reorderProblem, seen],
      fun i hi g hg l hl => by simp [reorderProblem, seen]⟩
    (reorder_sources p ext bnd) (fun i hi g hg => by simp [seen])
  exact ⟨o, o', h1, h2, fun i hi g hg => by simpa [seen] using h3 i hi g hg⟩

/-- C104 with anisotropic scattering; only the zeroth moment between groups and the moments within a group
have to agree. -/
theorem C104_aniso (ρ : ℕ → ℕ) (p : Problem K) (L : ℕ) (xsTotal xsTotal' : ℕ → ℕ → K)
    (xs xs' : ℕ → ℕ → ℕ → ℕ → K) (ext bnd : Arr3 K) (flux : ℕ → ℕ → K)
    (hok : ∀ g < p.groups, SlabOk p xsTotal g) (hstd : Standard p)
    (htotal : ∀ i < p.cells, ∀ g < p.groups, xsTotal' (ρ (p.mm i)) g = xsTotal (p.mm i) g)
    (hscatter : ∀ i < p.cells, ∀ g < p.groups, ∀ g' < p.groups, ∀ l, xs' (ρ (p.mm i)) g g' l = xs (p.mm i) g g' l) :
    ∃ out out', sourceIteration p xsTotal (.aniso L xs) ext bnd flux = .ok out ∧
      sourceIteration (renumberProblem ρ p) xsTotal' (.aniso L xs') ext bnd flux = .ok out' ∧
      ∀ i < p.cells, ∀ g < p.groups, out' i g = out i g := by
  obtain ⟨o, o', h1, h2, h3⟩ := similar_source_iteration_aniso 1 1 false id p (renumberProblem ρ p) L xsTotal
    xsTotal' xs xs' ext ext bnd bnd flux flux one_pos hok (renumber_similar hstd)
    ⟨fun i hi g hg => by simp [renumberProblem, seen, htotal i hi g hg],
      fun i hi g hg g' hg' => by simp [renumberProblem, seen, hscatter i hi g hg g' hg'],
      fun i hi g hg l hl => by simp [renumberProblem, seen, hscatter i hi g hg g hg]⟩
    (same_sources p ext bnd) (fun i hi g hg => by simp [seen])
  exact ⟨o, o', h1, h2, fun i hi g hg => by simpa [seen] using h3 i hi g hg⟩

/-- Linearly anisotropic scattering for the examples. -/
def exMoments (m _g _g' l : ℕ) : ℚ := if l = 0 then (m : ℚ) / 4 + 1 / 4 else 1 / 8

example := C100_aniso exStd 2 exTotal exMoments ⟨1, 1, fun i _ _ => (i : ℚ)⟩
  ⟨1, 1, fun t _ _ => (t : ℚ)⟩ (fun i g => (i : ℚ) + g) (fun g _ => exStdOk g) exStdStandard

example := C101_aniso 7 (by norm_num) exStd 2 exTotal exMoments ⟨1, 1, fun i _ _ => (i : ℚ)⟩
  ⟨1, 1, fun t _ _ => (t : ℚ)⟩ (fun i g => (i : ℚ) + g) (fun g _ => exStdOk g) exStdStandard

example := C102_aniso 100 (by norm_num) exStd 2 exTotal exMoments ⟨1, 1, fun i _ _ => (i : ℚ)⟩
  ⟨1, 1, fun t _ _ => (t : ℚ)⟩ (fun i g => (i : ℚ) + g) (fun g _ => exStdOk g) exStdStandard

example := C103_aniso (Equiv.swap 0 1) exVac 2 exTotal exMoments ⟨1, 1, fun i _ _ => (i : ℚ)⟩
  ⟨1, 1, fun t _ _ => (t : ℚ)⟩ (fun i g => (i : ℚ) + g) (fun g _ => exVacOk g) exVacStandard exSwap
  ⟨rfl, rfl⟩

example := C104_aniso (fun m => m + 5) exStd 2 exTotal (fun m g => exTotal (m - 5) g) exMoments
  (fun m => exMoments (m - 5)) ⟨1, 1, fun i _ _ => (i : ℚ)⟩ ⟨1, 1, fun t _ _ => (t : ℚ)⟩
  (fun i g => (i : ℚ) + g) (fun g _ => exStdOk g) exStdStandard (fun _ _ _ _ => rfl) (fun _ _ _ _ _ _ _ => rfl)

end Discrete1.Props
