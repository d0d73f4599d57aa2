import Verif.Lemmas.Basic
import Verif.Model.MultiGroup

/-! # C23: length-one axes broadcast -/

set_option linter.unusedSectionVars false
set_option linter.unusedSimpArgs false

namespace Discrete1.Props

open Discrete1.Tools Discrete1.MultiGroup

variable {K : Type*} [Field K] [LinearOrder K]

/-- `numpy.repeat` of the length-one axes: an array of full size `(·, A, G)` whose entry is the entry of
`a` with every length-one axis read at index 0. -/
def repeated (A G : ℕ) (a : Arr3 K) : Arr3 K :=
  ⟨A, G, fun i n g => a.val i (if a.angles = 1 then 0 else n) (if a.groups = 1 then 0 else g)⟩

/-- The same for one group. -/
def repeated2 (A : ℕ) (a : Arr2 K) : Arr2 K :=
  ⟨A, fun i n => a.val i (if a.angles = 1 then 0 else n)⟩

theorem bidx_of_lt {A n : ℕ} (h : n < A) : bidx A n = n := by
  unfold bidx; split_ifs <;> omega

theorem loopE_congr {σ ε : Type*} (n : ℕ) (f g : ℕ → σ → Except ε σ) (s : σ)
    (h : ∀ i < n, ∀ s, f i s = g i s) : loopE n f s = loopE n g s := by
  induction n with
  | zero => rfl
  | succ n ih =>
    rw [loopE_succ, loopE_succ, ih fun i hi => h i (by omega)]
    cases loopE n g s with
    | error e => rfl
    | ok v => exact h n (by omega) v

theorem repeated_group (A G : ℕ) (a : Arr3 K) {g : ℕ} (hg : g < G) :
    (repeated A G a).group (bidx G g) = repeated2 A (a.group (bidx a.groups g)) := by
  rw [bidx_of_lt hg]; rfl

theorem repeated2_val (A : ℕ) (a : Arr2 K) {n : ℕ} (h : n < A) (i : ℕ) :
    (repeated2 A a).val i (bidx (repeated2 A a).angles n) = a.val i (bidx a.angles n) := by
  show (repeated2 A a).val i (bidx A n) = _
  rw [bidx_of_lt h]; rfl

theorem repeated2_val_zero (A : ℕ) (a : Arr2 K) (i : ℕ) :
    (repeated2 A a).val i 0 = a.val i 0 := by
  simp [repeated2]

theorem slab_angleLoop_congr {S : Type*} (A : ℕ) (mu : ℕ → K) (bcL bcR : Bool)
    (inL inR inL' inR' : ℕ → K) (fwd bwd fwd' bwd' : ℕ → S → K → S × K) (s : S)
    (hL : ∀ n < A, inL n = inL' n) (hR : ∀ n < A, inR n = inR' n)
    (hf : ∀ n < A, fwd n = fwd' n) (hb : ∀ n < A, bwd n = bwd' n) :
    Slab.angleLoop A mu bcL bcR inL inR fwd bwd s = Slab.angleLoop A mu bcL bcR inL' inR' fwd' bwd' s := by
  unfold Slab.angleLoop
  refine loopE_congr _ _ _ _ fun n hn st => ?_
  rw [hL n hn, hR n hn, hf n hn, hb n hn]

theorem sphere_angleLoop_congr (N A : ℕ) (pi : K) (xsTotal : ℕ → K) (q q' : ℕ → ℕ → K)
    (inR inR' : ℕ → K) (mm : ℕ → ℕ) (dx mu w : ℕ → K) (edges : Bool) (PW : ℕ → ℕ → K)
    (bwd : Sphere.DirInput K → K → (ℕ → K) → (ℕ → K) → Sphere.DirState K) (half : ℕ → K)
    (hq : ∀ n < A, q n = q' n) (hR : ∀ n < A, inR n = inR' n) :
    Sphere.angleLoop N A pi xsTotal q inR mm dx mu w edges PW bwd half
      = Sphere.angleLoop N A pi xsTotal q' inR' mm dx mu w edges PW bwd half := by
  unfold Sphere.angleLoop
  refine loopE_congr _ _ _ _ fun n hn st => ?_
  simp only [hq n hn, hR n hn]

theorem slab_iso_repeated (N A : ℕ) (conv : (ℕ → K) → (ℕ → K) → Bool) (xsTotal xsScatter off : ℕ → K)
    (ext bnd : Arr2 K) (mm : ℕ → ℕ) (dx mu w : ℕ → K) (bcL bcR edges : Bool) (old : ℕ → K) :
    Slab.isotropicSn N A conv xsTotal xsScatter off (repeated2 A ext) (repeated2 A bnd) mm dx mu w bcL
      bcR edges old
    = Slab.isotropicSn N A conv xsTotal xsScatter off ext bnd mm dx mu w bcL bcR edges old := by
  unfold Slab.isotropicSn
  congr 1
  funext o
  unfold Slab.isotropicSweep
  simp only
  congr 1
  refine slab_angleLoop_congr _ _ _ _ _ _ _ _ _ _ _ _ _ (fun n hn => repeated2_val _ _ hn _)
    (fun n hn => repeated2_val _ _ hn _) (fun n hn => ?_) (fun n hn => ?_)
  · funext f e
    rw [show (fun ii => (repeated2 A ext).val ii (bidx (repeated2 A ext).angles n))
      = fun ii => ext.val ii (bidx ext.angles n) from funext fun ii => repeated2_val _ _ hn ii]
  · funext f e
    rw [show (fun ii => (repeated2 A ext).val ii (bidx (repeated2 A ext).angles n))
      = fun ii => ext.val ii (bidx ext.angles n) from funext fun ii => repeated2_val _ _ hn ii]

theorem slab_aniso_repeated (N A L : ℕ) (conv : (ℕ → K) → (ℕ → K) → Bool) (xsTotal : ℕ → K)
    (xsW : ℕ → ℕ → K) (off : ℕ → K)
    (ext bnd : Arr2 K) (mm : ℕ → ℕ) (dx mu w : ℕ → K) (bcL bcR edges : Bool) (P PW : ℕ → ℕ → K)
    (old : ℕ → K) :
    Slab.anisotropicSn N A L conv xsTotal xsW off (repeated2 A ext) (repeated2 A bnd) mm dx mu w bcL
      bcR edges P PW old
    = Slab.anisotropicSn N A L conv xsTotal xsW off ext bnd mm dx mu w bcL bcR edges P PW old := by
  unfold Slab.anisotropicSn
  congr 2
  funext o
  unfold Slab.anisotropicSweep
  simp only
  congr 1
  refine slab_angleLoop_congr _ _ _ _ _ _ _ _ _ _ _ _ _ (fun n hn => repeated2_val _ _ hn _)
    (fun n hn => repeated2_val _ _ hn _) (fun n hn => ?_) (fun n hn => ?_)
  · funext f e
    rw [show (fun ii => (repeated2 A ext).val ii (bidx (repeated2 A ext).angles n))
      = fun ii => ext.val ii (bidx ext.angles n) from funext fun ii => repeated2_val _ _ hn ii]
  · funext f e
    rw [show (fun ii => (repeated2 A ext).val ii (bidx (repeated2 A ext).angles n))
      = fun ii => ext.val ii (bidx ext.angles n) from funext fun ii => repeated2_val _ _ hn ii]

theorem sphere_iso_repeated (N A : ℕ) (conv : (ℕ → K) → (ℕ → K) → Bool) (pi : K)
    (xsTotal xsScatter off : ℕ → K)
    (ext bnd : Arr2 K) (mm : ℕ → ℕ) (dx mu w : ℕ → K) (edges : Bool) (old : ℕ → K) :
    Sphere.isotropicSn N A conv pi xsTotal xsScatter off (repeated2 A ext) (repeated2 A bnd) mm dx mu w
      edges old
    = Sphere.isotropicSn N A conv pi xsTotal xsScatter off ext bnd mm dx mu w edges old := by
  unfold Sphere.isotropicSn
  congr 1
  funext o
  unfold Sphere.isotropicSweep
  simp only [repeated2_val_zero]
  congr 1
  refine sphere_angleLoop_congr _ _ _ _ _ _ _ _ _ _ _ _ _ _ _ _ (fun n hn => ?_)
    (fun n hn => repeated2_val _ _ hn _)
  funext ii
  rw [repeated2_val _ _ hn]

theorem sphere_aniso_repeated (N A L : ℕ) (conv : (ℕ → K) → (ℕ → K) → Bool) (pi : K)
    (xsTotal self0 : ℕ → K) (xsW : ℕ → ℕ → K) (off : ℕ → K)
    (ext bnd : Arr2 K) (mm : ℕ → ℕ) (dx mu w : ℕ → K) (edges : Bool) (P PW : ℕ → ℕ → K) (old : ℕ → K) :
    Sphere.anisotropicSn N A L conv pi xsTotal self0 xsW off (repeated2 A ext) (repeated2 A bnd) mm dx
      mu w edges P PW old
    = Sphere.anisotropicSn N A L conv pi xsTotal self0 xsW off ext bnd mm dx mu w edges P PW old := by
  unfold Sphere.anisotropicSn
  congr 2
  funext o
  unfold Sphere.anisotropicSweep
  simp only [repeated2_val_zero]
  congr 1
  refine sphere_angleLoop_congr _ _ _ _ _ _ _ _ _ _ _ _ _ _ _ _ (fun n hn => ?_)
    (fun n hn => repeated2_val _ _ hn _)
  funext ii
  rw [repeated2_val _ _ hn]

/-- C23 for `source_iteration` (slab and sphere, isotropic and anisotropic): external source and
boundary given with length-one axes give exactly the result (flux or exception) of the same data
repeated along those axes. -/
theorem C23_source_iteration (p : Problem K) (xsTotal : ℕ → ℕ → K) (s : Scatter K)
    (external boundary : Arr3 K) (old : ℕ → ℕ → K) :
    sourceIteration p xsTotal s (repeated p.angles p.groups external)
      (repeated p.angles p.groups boundary) old
    = sourceIteration p xsTotal s external boundary old := by
  cases s with
  | iso xs =>
    show sourceIterationIso _ _ _ _ _ _ = sourceIterationIso _ _ _ _ _ _
    unfold sourceIterationIso
    congr 1
    funext o
    unfold oneSweepIso
    refine loopE_congr _ _ _ _ fun g hg f => ?_
    unfold groupStepIso
    have h1 : (repeated p.angles p.groups external).groups = p.groups := rfl
    have h2 : (repeated p.angles p.groups boundary).groups = p.groups := rfl
    simp only [h1, h2, repeated_group _ _ _ hg, slab_iso_repeated, sphere_iso_repeated]
  | aniso L xs =>
    show sourceIterationAniso _ _ _ _ _ _ _ _ _ = sourceIterationAniso _ _ _ _ _ _ _ _ _
    unfold sourceIterationAniso
    congr 1
    funext o
    unfold oneSweepAniso
    refine loopE_congr _ _ _ _ fun g hg f => ?_
    unfold groupStepAniso
    have h1 : (repeated p.angles p.groups external).groups = p.groups := rfl
    have h2 : (repeated p.angles p.groups boundary).groups = p.groups := rfl
    simp only [h1, h2, repeated_group _ _ _ hg, slab_aniso_repeated, sphere_aniso_repeated]

theorem knownStep_congr (N A xdim : ℕ) (xsTotal : ℕ → K) (src src' bnd bnd' : Arr2 K) (mm : ℕ → ℕ)
    (dx mu w : ℕ → K) (bcL bcR edges : Bool) (n : ℕ) (s : Slab.AngleState K (ℕ → ℕ → K))
    (hs : ∀ i, src.val i (bidx src.angles n) = src'.val i (bidx src'.angles n))
    (hb : ∀ i, bnd.val i (bidx bnd.angles n) = bnd'.val i (bidx bnd'.angles n)) :
    Slab.knownStep N A xdim xsTotal src bnd mm dx mu w bcL bcR edges n s
      = Slab.knownStep N A xdim xsTotal src' bnd' mm dx mu w bcL bcR edges n s := by
  unfold Slab.knownStep
  simp only [hs, hb]

/-- C23 for the known-source functions: a boundary with length-one axes gives the same angular and
scalar fluxes as the repeated one, in every group of the source. -/
theorem C23_known_source_boundary (p : Problem K) (xsTotal : ℕ → ℕ → K) (source boundary : Arr3 K)
    (edges : Bool) (G : ℕ) (hgeo : p.geometry = 1) :
    (∃ f f', knownSourceAngular p xsTotal source boundary edges = .ok f ∧
      knownSourceAngular p xsTotal source (repeated p.angles G boundary) edges = .ok f' ∧
      ∀ g < G, ∀ i n, f' i n g = f i n g) ∧
    (∃ f f', knownSourceScalar p xsTotal source boundary edges = .ok f ∧
      knownSourceScalar p xsTotal source (repeated p.angles G boundary) edges = .ok f' ∧
      ∀ g < G, ∀ i, f' i g = f i g) := by
  unfold knownSourceAngular knownSourceScalar
  simp only [hgeo, if_true]
  refine ⟨⟨_, _, rfl, rfl, fun g hg i n => ?_⟩, ⟨_, _, rfl, rfl, fun g hg i => ?_⟩⟩
  all_goals
    unfold Slab.knownSourceSn
    rw [show (repeated p.angles G boundary).groups = G from rfl, repeated_group _ _ _ hg]
    rw [loop_congr p.angles _ _ _ fun n hn s => knownStep_congr _ _ _ _ _ _ _
      (boundary.group (bidx boundary.groups g)) _ _ _ _ _ _ _ n s (fun i => rfl)
      fun i => repeated2_val _ _ hn i]

/-- C23 for the scalar known-source function: a source with a length-one *angle* axis is read as the
source repeated over the angles (its group axis sets the number of groups and must be full). -/
theorem C23_known_source_scalar_source (p : Problem K) (xsTotal : ℕ → ℕ → K) (source boundary : Arr3 K)
    (edges : Bool) (hgeo : p.geometry = 1) :
    ∃ f f', knownSourceScalar p xsTotal source boundary edges = .ok f ∧
      knownSourceScalar p xsTotal (repeated p.angles source.groups source) boundary edges = .ok f' ∧
      ∀ g < source.groups, ∀ i, f' i g = f i g := by
  unfold knownSourceScalar
  simp only [hgeo, if_true]
  refine ⟨_, _, rfl, rfl, fun g hg i => ?_⟩
  unfold Slab.knownSourceSn
  rw [show (repeated p.angles source.groups source).groups = source.groups from rfl,
    repeated_group _ _ _ hg]
  rw [loop_congr p.angles _ _ _ fun n hn s => knownStep_congr _ _ _ _ _ (source.group (bidx source.groups g)) _
      (boundary.group (bidx boundary.groups g)) _ _ _ _ _ _ _ n s
      (fun i => repeated2_val _ _ hn i) (fun i => rfl)]

/-- C23 (violation): in the sweep used with machine-learned scattering the boundary column is chosen
with the angle axis of the *external source*: with a length-one external axis the columns of an
angle-dependent boundary other than column 0 are never read, so two boundaries that agree on column 0
give the same flux. -/
theorem C23_violation_scatter_source (N A : ℕ) (xsTotal scatter : ℕ → K) (ext bnd bnd' : Arr2 K)
    (mm : ℕ → ℕ) (dx mu w : ℕ → K) (bcL bcR : Bool) (hext : ext.angles = 1)
    (h0 : ∀ i, bnd.val i 0 = bnd'.val i 0) :
    Slab.scatterSourceSn N A xsTotal scatter ext bnd mm dx mu w bcL bcR
      = Slab.scatterSourceSn N A xsTotal scatter ext bnd' mm dx mu w bcL bcR := by
  unfold Slab.scatterSourceSn
  simp only [hext, bidx, if_true, h0]

/-- C23 (violation), concretely: one cell, one void material, two ordinates, an angle-dependent
boundary that is non-zero for the second ordinate only.  With the external source given once the
inflow is ignored; with the same external source repeated over the two angles it is used. -/
theorem C23_violation_scatter_source_example :
    ∃ (ext bnd : Arr2 ℚ) (f f' : ℕ → ℚ),
      Slab.scatterSourceSn 1 2 (fun _ => 0) (fun _ => 0) ext bnd (fun _ => 0) (fun _ => 1)
        (fun n => if n = 0 then -1 else 1) (fun _ => 1 / 2) false false = .ok f ∧
      Slab.scatterSourceSn 1 2 (fun _ => 0) (fun _ => 0) (repeated2 2 ext) bnd (fun _ => 0) (fun _ => 1)
        (fun n => if n = 0 then -1 else 1) (fun _ => 1 / 2) false false = .ok f' ∧
      f 0 = 0 ∧ f' 0 = 1 / 2 := by
  refine ⟨⟨1, fun _ _ => 0⟩, ⟨2, fun _ n => if n = 1 then 1 else 0⟩, _, _, rfl, rfl, ?_, ?_⟩
  · simp [Slab.forwardScatter, Slab.backwardScatter, addAt, bidx, reflectorCorrector, loop, loopDown]
  · simp [Slab.forwardScatter, Slab.backwardScatter, addAt, bidx, reflectorCorrector, loop, loopDown, repeated2]; norm_num

-- a boundary with both axes of length one on a problem with two angles and two groups is in scope
example : (repeated 2 2 (⟨1, 1, fun i _ _ => (i : ℚ)⟩ : Arr3 ℚ)).val 1 1 1 = 1 := by simp [repeated]

end Discrete1.Props
