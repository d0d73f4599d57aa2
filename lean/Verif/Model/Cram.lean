import Verif.Model.Basic
import Mathlib.Data.Complex.Basic
import Mathlib.LinearAlgebra.Matrix.Notation
import Mathlib.Data.Matrix.Mul

/-!
# Model of `cram.py`

The coefficient tables are the decimal literals of the source, as exact rationals.  The sparse LU factorisation is a
parameter: it returns a solver or raises (RuntimeError for a singular matrix).
-/

namespace Discrete1.Cram

/-- One pole `theta` of the half set with its residue `alpha` (cram.py:47-148). -/
structure Pole where
  thRe : ℚ
  thIm : ℚ
  alRe : ℚ
  alIm : ℚ

/-- `_THETA16` and `_ALPHA16` (cram.py:47-73). -/
def poles16 : List Pole := [
  ⟨3.509103608414918, 8.436198985884374, 5.464930576870210e3, -3.797983575308356e4⟩,
  ⟨5.948152268951177, 3.587457362018322, 9.045112476907548e1, -1.115537522430261e3⟩,
  ⟨-5.264971343442647, 16.22022147316793, 2.344818070467641e2, -4.228020157070496e2⟩,
  ⟨1.419375897185666, 10.92536348449672, 9.453304067358312e1, -2.951294291446048e2⟩,
  ⟨6.416177699099435, 1.194122393370139, 7.283792954673409e2, -1.205646080220011e5⟩,
  ⟨4.993174737717997, 5.996881713603942, 3.648229059594851e1, -1.155509621409682e2⟩,
  ⟨-1.413928462488886, 13.49772569889275, 2.547321630156819e1, -2.639500283021502e1⟩,
  ⟨-10.84391707869699, 19.27744616718165, 2.394538338734709e1, -5.650522971778156e0⟩]

/-- `_THETA48` and `_ALPHA48` (cram.py:78-136). -/
def poles48 : List Pole := [
  ⟨-4.465731934165702e1, 6.233225190695437e1, 6.387380733878774e2, -6.743912502859256e2⟩,
  ⟨-5.284616241568964e0, 4.057499381311059e1, 1.909896179065730e2, -3.973203432721332e2⟩,
  ⟨-8.867715667624458e0, 4.325515754166724e1, 4.236195226571914e2, -2.041233768918671e3⟩,
  ⟨3.493013124279215e0, 3.281615453173585e1, 4.645770595258726e2, -1.652917287299683e3⟩,
  ⟨1.564102508858634e1, 1.558061616372237e1, 7.765163276752433e2, -1.783617639907328e4⟩,
  ⟨1.742097597385893e1, 1.076629305714420e1, 1.907115136768522e3, -5.887068595142284e4⟩,
  ⟨-2.834466755180654e1, 5.492841024648724e1, 2.909892685603256e3, -9.953255345514560e3⟩,
  ⟨1.661569367939544e1, 1.316994930024688e1, 1.944772206620450e2, -1.427131226068449e3⟩,
  ⟨8.011836167974721e0, 2.780232111309410e1, 1.382799786972332e5, -3.256885197214938e6⟩,
  ⟨-2.056267541998229e0, 3.794824788914354e1, 5.628442079602433e3, -2.924284515884309e4⟩,
  ⟨1.449208170441839e1, 1.799988210051809e1, 2.151681283794220e2, -1.121774011188224e3⟩,
  ⟨1.853807176907916e1, 5.974332563100539e0, 1.324720240514420e3, -6.370088443140973e4⟩,
  ⟨9.932562704505182e0, 2.532823409972962e1, 1.617548476343347e4, -1.008798413156542e6⟩,
  ⟨-2.244223871767187e1, 5.179633600312162e1, 1.112729040439685e2, -8.837109731680418e1⟩,
  ⟨8.590014121680897e-1, 3.536456194294350e1, 1.074624783191125e2, -1.457246116408180e2⟩,
  ⟨-1.286192925744479e1, 4.600304902833652e1, 8.835727765158191e1, -6.388286188419360e1⟩,
  ⟨1.164596909542055e1, 2.287153304140217e1, 9.354078136054179e1, -2.195424319460237e2⟩,
  ⟨1.806076684783089e1, 8.368200580099821e0, 9.418142823531573e1, -6.719055740098035e2⟩,
  ⟨5.870672154659249e0, 3.029700159040121e1, 1.040012390717851e2, -1.693747595553868e2⟩,
  ⟨-3.542938819659747e1, 5.834381701800013e1, 6.861882624343235e1, -1.177598523430493e1⟩,
  ⟨1.901323489060250e1, 1.194282058271408e0, 8.766654491283722e1, -4.596464999363902e3⟩,
  ⟨1.885508331552577e1, 3.583428564427879e0, 1.056007619389650e2, -1.738294585524067e3⟩,
  ⟨-1.734689708174982e1, 4.883941101108207e1, 7.738987569039419e1, -4.311715386228984e1⟩,
  ⟨1.316284237125190e1, 2.042951874827759e1, 1.041366366475571e2, -2.777743732451969e2⟩]

/-- `_COEFFS` (cram.py:75, 138-143): the poles and `alpha0` of an order. -/
def coeffs (order : ℤ) : Option (List Pole × ℚ) :=
  if order = 16 then some (poles16, 2.124853710495224e-16)
  else if order = 48 then some (poles48, 2.258038182743983e-47)
  else none

/-- `theta_k` (cram.py:47-148). -/
def Pole.theta (p : Pole) : ℂ := ⟨(p.thRe : ℝ), (p.thIm : ℝ)⟩

/-- `alpha_k` (cram.py:47-148). -/
def Pole.alpha (p : Pole) : ℂ := ⟨(p.alRe : ℝ), (p.alIm : ℝ)⟩

variable {ι : Type} [Fintype ι] [DecidableEq ι]

/-- `[spla.splu(A - theta_k * identity).solve for theta_k in theta]` (cram.py:196): the first failing
factorisation raises. -/
def solvers (splu : Matrix ι ι ℂ → Except PyErr ((ι → ℂ) → ι → ℂ)) (A : Matrix ι ι ℂ) :
    List Pole → Except PyErr (List ((ι → ℂ) → ι → ℂ))
  | [] => .ok []
  | p :: ps =>
    match splu (A - p.theta • (1 : Matrix ι ι ℂ)) with
    | .error e => .error e
    | .ok s =>
      match solvers splu A ps with
      | .error e => .error e
      | .ok rest => .ok (s :: rest)

/-- `y = y + 2.0 * np.real(alpha_k * solve(y))` (cram.py:200). -/
def poleUpdate (alpha : ℂ) (solve : (ι → ℂ) → ι → ℂ) (y : ι → ℝ) : ι → ℝ :=
  fun i => y i + 2 * (alpha * solve (fun j => (y j : ℂ)) i).re

/-- The inner loop over `zip(alpha, solvers)` (cram.py:200-201). -/
def poleLoop : List Pole → List ((ι → ℂ) → ι → ℂ) → (ι → ℝ) → ι → ℝ
  | p :: ps, s :: ss, y => poleLoop ps ss (poleUpdate p.alpha s y)
  | _, _, y => y

/-- One substep (cram.py:200-202). -/
def substep (ps : List Pole) (alpha0 : ℚ) (ss : List ((ι → ℂ) → ι → ℂ)) (y : ι → ℝ) : ι → ℝ :=
  fun i => (alpha0 : ℝ) * poleLoop ps ss y i

/-- `cram_expm` (cram.py:151-203). -/
noncomputable def cramExpm (splu : Matrix ι ι ℂ → Except PyErr ((ι → ℂ) → ι → ℂ)) (matrix : Matrix ι ι ℝ)
    (n0 : ι → ℝ) (dt : ℝ) (order substeps : ℤ) : Except PyErr (ι → ℝ) :=
  match coeffs order with
  | none => .error .valueError
  | some (ps, alpha0) =>
    if substeps < 1 then .error .valueError
    else
      let stepDt := dt / (substeps : ℝ)
      let A : Matrix ι ι ℂ := fun i j => (matrix i j : ℂ) * (stepDt : ℂ)
      match solvers splu A ps with
      | .error e => .error e
      | .ok ss => .ok (loop substeps.toNat (fun _ y => substep ps alpha0 ss y) n0)

end Discrete1.Cram
