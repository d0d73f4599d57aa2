import Verif.Model.Rounded
import Verif.Props.Existence
import Verif.Props.Compare
import Verif.Props.Energy
import Mathlib.Data.Int.Log
import Mathlib.Algebra.Order.Round

/-!
# Rounded arithmetic (C175-C177)

The solver runs in floating point.  These theorems are about the model of `Model/Rounded.lean`, where
every operation is followed by a rounding.
-/

set_option linter.unusedSectionVars false
set_option linter.unusedSimpArgs false

namespace Discrete1.Props

open Finset Discrete1.Spec Discrete1.Slab Discrete1.Tools Discrete1.MultiGroup Discrete1.Drivers

variable {K : Type} [Field K] [LinearOrder K] [IsStrictOrderedRing K]

/-! ## Specification of a rounding -/

/-- A rounding keeps the order and keeps zero.  Every IEEE rounding mode does. -/
structure IsRounding (rnd : K → K) : Prop where
  mono : ∀ x y, x ≤ y → rnd x ≤ rnd y
  zero : rnd 0 = 0

/-- A rounding with relative error at most `u` (the unit roundoff, `2^-53` for `float64` to nearest). -/
def RelativeError (u : K) (rnd : K → K) : Prop := ∀ x, |rnd x - x| ≤ u * |x|

theorem IsRounding.nonneg {rnd : K → K} (h : IsRounding rnd) {x : K} (hx : 0 ≤ x) : 0 ≤ rnd x := by
  have := h.mono 0 x hx
  rwa [h.zero] at this

/-! ## The rounded model without rounding is the exact model -/

theorem edge2_id (xsS old ext off e1 m dx xsT : K) :
    Rounded.edge2 id xsS old ext off e1 m dx xsT
      = (xsS * old + ext + off + e1 * (m / dx - 1 / 2 * xsT)) / (m / dx + 1 / 2 * xsT) := rfl

theorem rounded_isotropicSweep_id (cells angles : ℕ) (xsTotal xsScatter off : ℕ → K)
    (external boundary : Arr2 K) (mm : ℕ → ℕ) (dx angleX angleW : ℕ → K) (bcL bcR : Bool)
    (fluxOld : ℕ → K) :
    Rounded.isotropicSweep id cells angles xsTotal xsScatter off external boundary mm dx angleX angleW
      bcL bcR fluxOld
      = isotropicSweep cells angles xsTotal xsScatter off external boundary mm dx angleX angleW bcL bcR
        false fluxOld := rfl

theorem rounded_offScatter_id (groups : ℕ) (flux fluxOld : ℕ → ℕ → K) (mm : ℕ → ℕ)
    (xs : ℕ → ℕ → ℕ → K) (gg : ℕ) :
    Rounded.offScatter id groups flux fluxOld mm xs gg = offScatter groups flux fluxOld mm xs gg := rfl

/-- C175, the two models agree: with the identity for `rnd` the rounded source iteration on a slab is
the source iteration all the other theorems are about. -/
theorem C175_exact_arithmetic (p : Problem K) (xsTotal : ℕ → ℕ → K) (xs : ℕ → ℕ → ℕ → K)
    (external boundary : Arr3 K) (fluxOld : ℕ → ℕ → K) (hslab : p.geometry = 1) :
    Rounded.sourceIterationIso id p xsTotal xs external boundary fluxOld
      = sourceIteration p xsTotal (.iso xs) external boundary fluxOld := by
  show iterateE _ _ _ _ = iterateE _ _ _ _
  have : Rounded.oneSweepIso id p xsTotal xs external boundary
      = oneSweepIso p xsTotal xs external boundary := by
    funext old
    show loopE _ _ _ = loopE _ _ _
    congr 1
    funext gg flux
    unfold groupStepIso
    simp only [hslab, if_true]
    rfl
  rw [this]

/-! ## C175: the sign survives rounding -/

theorem half_le_of_fine {m dx s : K} (hdx : 0 < dx) (h : s * dx ≤ 2 * m) : 1 / 2 * s ≤ m / dx := by
  have := fine_coef hdx h
  linarith

theorem edge2_nonneg {rnd : K → K} (hr : IsRounding rnd) {xsS old ext off e1 m dx xsT : K}
    (hs : 0 ≤ xsS * old) (hext : 0 ≤ ext) (hoff : 0 ≤ off) (he : 0 ≤ e1)
    (hT : 0 ≤ xsT) (hm : 1 / 2 * xsT ≤ m / dx) :
    0 ≤ Rounded.edge2 rnd xsS old ext off e1 m dx xsT := by
  unfold Rounded.edge2
  have h2 : 0 ≤ 1 / 2 * xsT := by positivity
  have ha : 0 ≤ rnd (m / dx) := hr.nonneg (h2.trans hm)
  have hb : 0 ≤ rnd (1 / 2 * xsT) := hr.nonneg h2
  have hab := hr.mono _ _ hm
  have q1 := hr.nonneg hs
  have q2 := hr.nonneg (add_nonneg q1 hext)
  have q3 := hr.nonneg (add_nonneg q2 hoff)
  have q4 := hr.nonneg (sub_nonneg.mpr hab)
  have q5 := hr.nonneg (mul_nonneg he q4)
  exact hr.nonneg (div_nonneg (hr.nonneg (add_nonneg q3 q5)) (hr.nonneg (add_nonneg ha hb)))

theorem increment_nonneg {rnd : K → K} (hr : IsRounding rnd) {w e1 e2 : K} (hw : 0 ≤ w) (h1 : 0 ≤ e1)
    (h2 : 0 ≤ e2) : 0 ≤ Rounded.increment rnd w e1 e2 :=
  hr.nonneg (mul_nonneg (hr.nonneg (by positivity)) (hr.nonneg (add_nonneg h1 h2)))

theorem addAtR_apply (rnd : K → K) (a : ℕ → K) (i j : ℕ) (v : K) :
    Rounded.addAtR rnd a i v j = if j = i then rnd (a j + v) else a j := by
  unfold Rounded.addAtR
  by_cases h : j = i
  · subst h; simp
  · simp [h]

theorem addAtR_nonneg {rnd : K → K} (hr : IsRounding rnd) {a : ℕ → K} {i : ℕ} {v : K}
    (ha : ∀ j, 0 ≤ a j) (hv : 0 ≤ v) : ∀ j, 0 ≤ Rounded.addAtR rnd a i v j := by
  intro j
  rw [addAtR_apply]
  split
  · exact hr.nonneg (add_nonneg (ha j) hv)
  · exact ha j

/-- Positivity of one rounded direction. -/
theorem rounded_dir_nonneg {rnd : K → K} (hr : IsRounding rnd) {N : ℕ}
    {flux fluxOld xsTotal xsScatter off ext : ℕ → K} {e : K} {mm : ℕ → ℕ} {dx : ℕ → K} {mu w : K}
    (hphys : Physical N dx (fun i => xsTotal (mm i)))
    (hfine : FineFor N mu dx (fun i => xsTotal (mm i)))
    (hs : ∀ i < N, 0 ≤ xsScatter (mm i) * fluxOld i) (hext : ∀ i < N, 0 ≤ ext i)
    (hoff : ∀ i < N, 0 ≤ off i) (hw : 0 ≤ w) (hflux : ∀ i, 0 ≤ flux i) (he : 0 ≤ e) :
    (0 < mu → 0 ≤ (Rounded.forwardIso rnd N flux fluxOld xsTotal xsScatter off ext e mm dx mu w).2 ∧
      ∀ j, 0 ≤ (Rounded.forwardIso rnd N flux fluxOld xsTotal xsScatter off ext e mm dx mu w).1 j) ∧
    (mu < 0 → 0 ≤ (Rounded.backwardIso rnd N flux fluxOld xsTotal xsScatter off ext e mm dx mu w).2 ∧
      ∀ j, 0 ≤ (Rounded.backwardIso rnd N flux fluxOld xsTotal xsScatter off ext e mm dx mu w).1 j) := by
  constructor
  · intro hp
    unfold Rounded.forwardIso
    refine loop_induction (fun _ (s : (ℕ → K) × K) => 0 ≤ s.2 ∧ ∀ j, 0 ≤ s.1 j) N _ _ ⟨he, hflux⟩ ?_
    intro i hi s hs'
    have hf := hfine i hi
    rw [abs_of_pos hp] at hf
    have h2 := edge2_nonneg hr (hs i hi) (hext i hi) (hoff i hi) hs'.1 (hphys i hi).2
      (half_le_of_fine (hphys i hi).1 hf)
    exact ⟨h2, addAtR_nonneg hr hs'.2 (increment_nonneg hr hw hs'.1 h2)⟩
  · intro hn
    unfold Rounded.backwardIso
    refine loopDown_induction (fun _ (s : (ℕ → K) × K) => 0 ≤ s.2 ∧ ∀ j, 0 ≤ s.1 j) N _ _ ⟨he, hflux⟩ ?_
    intro i hi s hs'
    have hf := hfine i hi
    rw [abs_of_neg hn] at hf
    have h2 := edge2_nonneg hr (hs i hi) (hext i hi) (hoff i hi) hs'.1 (hphys i hi).2
      (half_le_of_fine (hphys i hi).1 hf)
    exact ⟨h2, addAtR_nonneg hr hs'.2 (increment_nonneg hr hw hs'.1 h2)⟩

/-- Positivity of one rounded pass over all the directions. -/
theorem rounded_sweep_nonneg {rnd : K → K} (hr : IsRounding rnd) {N A : ℕ}
    (xsTotal xsScatter off : ℕ → K) (external boundary : Arr2 K) (mm : ℕ → ℕ) (dx mu w : ℕ → K)
    (bcL bcR : Bool) (fluxOld : ℕ → K) (hne : ∀ n < A, mu n ≠ 0)
    (hphys : Physical N dx (fun i => xsTotal (mm i)))
    (hfine : ∀ n < A, FineFor N (mu n) dx (fun i => xsTotal (mm i)))
    (hdata : NonnegData N A mu w external boundary)
    (hs : ∀ i < N, 0 ≤ xsScatter (mm i)) (hoff : ∀ i < N, 0 ≤ off i)
    (hold : ∀ i < N, 0 ≤ fluxOld i) :
    ∃ flux, Rounded.isotropicSweep rnd N A xsTotal xsScatter off external boundary mm dx mu w bcL bcR
      fluxOld = .ok flux ∧ ∀ i, 0 ≤ flux i := by
  have hs' : ∀ i < N, 0 ≤ xsScatter (mm i) * fluxOld i := fun i hi =>
    mul_nonneg (hs i hi) (hold i hi)
  have refl : ∀ (r : ℕ → K) (e : K) (n : ℕ), (∀ m, 0 ≤ r m) → 0 ≤ e →
      ∀ m, 0 ≤ reflectorCorrector A r mu e n bcL bcR m := by
    intro r e n h0 he m
    unfold reflectorCorrector
    split
    · rw [setAt_apply]; split
      · exact he
      · exact h0 m
    · exact h0 m
  obtain ⟨s, h1, h2⟩ := loopE_inv (fun _ (s : AngleState K (ℕ → K)) =>
      (∀ j, 0 ≤ s.acc j) ∧ ∀ m, 0 ≤ s.reflector m) A (fun nn (s : AngleState K (ℕ → K)) =>
    if 0 < mu nn then
      let r := Rounded.forwardIso rnd N s.acc fluxOld xsTotal xsScatter off
        (fun ii => external.val ii (bidx external.angles nn))
        (rnd (s.reflector nn + boundary.val 0 (bidx boundary.angles nn))) mm dx (mu nn) (w nn)
      .ok ⟨r.1, reflectorCorrector A s.reflector mu r.2 nn bcL bcR, r.2⟩
    else if mu nn < 0 then
      let r := Rounded.backwardIso rnd N s.acc fluxOld xsTotal xsScatter off
        (fun ii => external.val ii (bidx external.angles nn))
        (rnd (s.reflector nn + boundary.val 1 (bidx boundary.angles nn))) mm dx (mu nn) (w nn)
      .ok ⟨r.1, reflectorCorrector A s.reflector mu r.2 nn bcL bcR, r.2⟩
    else .error PyErr.discontinuity) ⟨fun _ => 0, fun _ => 0, 0⟩ ⟨fun _ => le_refl _, fun _ => le_refl _⟩
    (fun n hn s hs => by
      rcases lt_or_gt_of_ne (hne n hn) with hneg | hpos
      · have hin : 0 ≤ rnd (s.reflector n + boundary.val 1 (bidx boundary.angles n)) :=
          hr.nonneg (add_nonneg (hs.2 n) (hdata.right n hn hneg))
        obtain ⟨ha, hb⟩ := (rounded_dir_nonneg hr hphys (hfine n hn) hs'
          (fun i hi => hdata.ext n hn i hi) hoff (hdata.weights n hn) hs.1 hin).2 hneg
        rw [if_neg (not_lt.mpr hneg.le), if_pos hneg]
        exact ⟨_, rfl, hb, refl _ _ _ hs.2 ha⟩
      · have hin : 0 ≤ rnd (s.reflector n + boundary.val 0 (bidx boundary.angles n)) :=
          hr.nonneg (add_nonneg (hs.2 n) (hdata.left n hn hpos))
        obtain ⟨ha, hb⟩ := (rounded_dir_nonneg hr hphys (hfine n hn) hs'
          (fun i hi => hdata.ext n hn i hi) hoff (hdata.weights n hn) hs.1 hin).1 hpos
        rw [if_pos hpos]
        exact ⟨_, rfl, hb, refl _ _ _ hs.2 ha⟩)
  refine ⟨s.acc, ?_, h2.1⟩
  unfold Rounded.isotropicSweep Rounded.angleLoop
  simp only
  rw [h1]
  rfl

theorem rounded_offScatter_nonneg {rnd : K → K} (hr : IsRounding rnd) {G : ℕ}
    {f old : ℕ → ℕ → K} {mm : ℕ → ℕ} {xs : ℕ → ℕ → ℕ → K} {g i : ℕ} (hg : g < G)
    (hxs : ∀ g' < G, 0 ≤ xs (mm i) g g') (hf : ∀ g' < G, 0 ≤ f i g') (hold : ∀ g' < G, 0 ≤ old i g') :
    0 ≤ Rounded.offScatter rnd G f old mm xs g i := by
  unfold Rounded.offScatter
  simp only
  refine loop_induction (fun _ (a : K) => 0 ≤ a) _ _ _ ?_ (fun k hk a ha => ?_)
  · exact loop_induction (fun _ (a : K) => 0 ≤ a) _ _ _ (le_refl _) (fun k hk a ha =>
      hr.nonneg (add_nonneg ha (hr.nonneg (mul_nonneg (hxs k (by omega)) (hf k (by omega))))))
  · exact hr.nonneg (add_nonneg ha (hr.nonneg (mul_nonneg (hxs _ (by omega)) (hold _ (by omega)))))

/-- C175: in rounded arithmetic, whatever the rounding (monotone, exact at zero) and whatever the
convergence tests, the source iteration on a slab with non-negative data on a mesh with
`sigma dx ≤ 2 |mu|` returns a non-negative flux: rounding never produces a negative flux. -/
theorem C175_rounded_nonneg {rnd : K → K} (hr : IsRounding rnd) (p : Problem K) (xsTotal : ℕ → ℕ → K)
    (xs : ℕ → ℕ → ℕ → K) (external boundary : Arr3 K) (fluxOld : ℕ → ℕ → K)
    (hok : ∀ g < p.groups, SlabOk p xsTotal g)
    (hfine : ∀ g < p.groups, ∀ n < p.angles,
      FineFor p.cells (p.angleX n) p.dx (fun i => xsTotal (p.mm i) g))
    (hdata : ∀ g < p.groups, NonnegData p.cells p.angles p.angleX p.angleW
      (external.group (bidx external.groups g)) (boundary.group (bidx boundary.groups g)))
    (hxs : ∀ i < p.cells, ∀ g < p.groups, ∀ g' < p.groups, 0 ≤ xs (p.mm i) g g')
    (hold : ∀ i < p.cells, ∀ g < p.groups, 0 ≤ fluxOld i g) :
    ∃ flux, Rounded.sourceIterationIso rnd p xsTotal xs external boundary fluxOld = .ok flux ∧
      ∀ i < p.cells, ∀ g < p.groups, 0 ≤ flux i g := by
  obtain ⟨x, k, _, _, _, hP, he, _⟩ := iterateE_spec
    (Rounded.oneSweepIso rnd p xsTotal xs external boundary)
    p.convOut (fun f => ∀ i < p.cells, ∀ g < p.groups, 0 ≤ f i g) (fun old hold => by
      obtain ⟨f, h1, h2⟩ := loopE_inv (fun _ (f : ℕ → ℕ → K) => ∀ i < p.cells, ∀ g < p.groups, 0 ≤ f i g)
        p.groups (Rounded.groupStepIso rnd p xsTotal xs external boundary old) (fun _ _ => 0)
        (fun _ _ _ _ => le_refl _) (fun g hg f hf => by
          have hoff : ∀ i < p.cells, 0 ≤ Rounded.offScatter rnd p.groups f old p.mm xs g i :=
            fun i hi => rounded_offScatter_nonneg hr hg (hxs i hi g hg) (hf i hi) (hold i hi)
          obtain ⟨y, j, _, _, _, hQ, hj, _⟩ := iterateE_spec (Rounded.isotropicSweep rnd p.cells p.angles
            (fun m => xsTotal m g) (fun m => xs m g g)
            (Rounded.offScatter rnd p.groups f old p.mm xs g)
            (external.group (bidx external.groups g)) (boundary.group (bidx boundary.groups g)) p.mm
            p.dx p.angleX p.angleW p.bcL p.bcR) p.convIn (fun f => ∀ i < p.cells, 0 ≤ f i)
            (fun a ha => by
              obtain ⟨b, hb1, hb2⟩ := rounded_sweep_nonneg hr (N := p.cells) (A := p.angles)
                (fun m => xsTotal m g) (fun m => xs m g g)
                (Rounded.offScatter rnd p.groups f old p.mm xs g)
                (external.group (bidx external.groups g)) (boundary.group (bidx boundary.groups g)) p.mm
                p.dx p.angleX p.angleW p.bcL p.bcR a (hok g hg).nonzero (hok g hg).phys
                (hfine g hg) (hdata g hg) (fun i hi => hxs i hi g hg g hg) hoff ha
              exact ⟨b, hb1, fun i _ => hb2 i⟩) 99 (fun i => old i g) (fun i hi => hold i hi g hg)
          refine ⟨putCol f g (y (j + 1)), ?_, ?_⟩
          · unfold Rounded.groupStepIso Rounded.isotropicSn
            rw [hj]; rfl
          · intro i hi g' hg'
            unfold putCol
            split
            · exact hQ _ (le_refl _) i hi
            · exact hf i hi g' hg')
      exact ⟨f, h1, h2⟩) 99 fluxOld hold
  exact ⟨x (k + 1), he, hP _ (le_refl _)⟩

/-! ## Relative closeness -/

/-- `y` is non-negative and agrees with `x` up to the factor `c`, both ways. -/
def WithinFactor (c x y : K) : Prop := 0 ≤ y ∧ y ≤ c * x ∧ x ≤ c * y

namespace WithinFactor

theorem left_nonneg {c x y : K} (hc : 0 < c) (h : WithinFactor c x y) : 0 ≤ x := by
  by_contra hx
  have : c * x < 0 := mul_neg_of_pos_of_neg hc (not_le.mp hx)
  linarith [h.1, h.2.1]

theorem refl {c x : K} (hc : 1 ≤ c) (hx : 0 ≤ x) : WithinFactor c x x :=
  ⟨hx, le_mul_of_one_le_left hx hc, le_mul_of_one_le_left hx hc⟩

theorem mono {c d x y : K} (hc : 0 < c) (hcd : c ≤ d) (h : WithinFactor c x y) : WithinFactor d x y :=
  ⟨h.1, h.2.1.trans (mul_le_mul_of_nonneg_right hcd (h.left_nonneg hc)),
    h.2.2.trans (mul_le_mul_of_nonneg_right hcd h.1)⟩

theorem add {c x y x' y' : K} (h : WithinFactor c x y) (h' : WithinFactor c x' y') :
    WithinFactor c (x + x') (y + y') :=
  ⟨add_nonneg h.1 h'.1, by rw [mul_add]; exact add_le_add h.2.1 h'.2.1,
    by rw [mul_add]; exact add_le_add h.2.2 h'.2.2⟩

theorem mul {c d x y x' y' : K} (hc : 0 < c) (hd : 0 < d) (h : WithinFactor c x y)
    (h' : WithinFactor d x' y') : WithinFactor (c * d) (x * x') (y * y') := by
  refine ⟨mul_nonneg h.1 h'.1, ?_, ?_⟩
  · calc y * y' ≤ (c * x) * (d * x') :=
        mul_le_mul h.2.1 h'.2.1 h'.1 (mul_nonneg hc.le (h.left_nonneg hc))
      _ = _ := by ring
  · calc x * x' ≤ (c * y) * (d * y') :=
        mul_le_mul h.2.2 h'.2.2 (h'.left_nonneg hd) (mul_nonneg hc.le h.1)
      _ = _ := by ring

theorem div {c d x y x' y' : K} (hc : 0 < c) (hd : 0 < d) (hx' : 0 < x') (h : WithinFactor c x y)
    (h' : WithinFactor d x' y') : WithinFactor (c * d) (x / x') (y / y') := by
  have hy' : 0 < y' := by
    by_contra hn
    have : d * y' ≤ 0 := mul_nonpos_of_nonneg_of_nonpos hd.le (not_lt.mp hn)
    linarith [h'.2.2]
  refine ⟨div_nonneg h.1 hy'.le, ?_, ?_⟩
  · rw [div_le_iff₀ hy']
    calc y ≤ c * x := h.2.1
      _ = c * (x / x') * x' := by field_simp
      _ ≤ c * (x / x') * (d * y') :=
        mul_le_mul_of_nonneg_left h'.2.2 (mul_nonneg hc.le (div_nonneg (h.left_nonneg hc) hx'.le))
      _ = _ := by ring
  · rw [div_le_iff₀ hx']
    calc x ≤ c * y := h.2.2
      _ = c * (y / y') * y' := by field_simp
      _ ≤ c * (y / y') * (d * x') :=
        mul_le_mul_of_nonneg_left h'.2.1 (mul_nonneg hc.le (div_nonneg h.1 hy'.le))
      _ = _ := by ring

/-- What closeness up to a factor says about the absolute error. -/
theorem abs_le {c x y : K} (hc : 1 ≤ c) (h : WithinFactor c x y) : |y - x| ≤ (c - 1) * x := by
  have hc0 : 0 < c := by linarith
  have hx := h.left_nonneg hc0
  rw [abs_sub_le_iff]
  refine ⟨by linarith [h.2.1], ?_⟩
  -- `x - y ≤ (c - 1) x` because `y ≥ x / c ≥ (2 - c) x`
  have h2 := h.2.2
  by_contra hn
  have hn : y < (2 - c) * x := by linarith [not_le.mp hn]
  have : c * y < c * ((2 - c) * x) := mul_lt_mul_of_pos_left hn hc0
  nlinarith [mul_nonneg (sq_nonneg (c - 1)) hx]

end WithinFactor

/-- The rounding of a non-negative number is within the factor `r` of it. -/
def RoundsWithin (r : K) (rnd : K → K) : Prop := ∀ x, 0 ≤ x → WithinFactor r x (rnd x)

theorem RelativeError.within {u : K} {rnd : K → K} (h : RelativeError u rnd) (hu0 : 0 ≤ u) (hu1 : u < 1) :
    RoundsWithin (1 / (1 - u)) rnd := by
  intro x hx
  have h1 := h x
  rw [abs_of_nonneg hx, abs_le] at h1
  have hp : 0 < 1 - u := by linarith
  refine ⟨?_, ?_, ?_⟩
  · nlinarith [mul_nonneg hp.le hx]
  · rw [div_mul_eq_mul_div, le_div_iff₀ hp]
    nlinarith [mul_nonneg (mul_nonneg hu0 hu0) hx]
  · rw [div_mul_eq_mul_div, le_div_iff₀ hp]
    nlinarith

theorem WithinFactor.round {c r x y : K} {rnd : K → K} (hr : RoundsWithin r rnd) (hc : 0 < c)
    (hr0 : 0 < r) (h : WithinFactor c x y) : WithinFactor (c * r) x (rnd y) := by
  obtain ⟨a1, a2, a3⟩ := hr y h.1
  refine ⟨a1, ?_, ?_⟩
  · calc rnd y ≤ r * y := a2
      _ ≤ r * (c * x) := mul_le_mul_of_nonneg_left h.2.1 hr0.le
      _ = _ := by ring
  · calc x ≤ c * y := h.2.2
      _ ≤ c * (r * rnd y) := mul_le_mul_of_nonneg_left a3 hc.le
      _ = _ := by ring

/-- Cancellation in `a - b` is harmless when `b` is a fraction `th` of `a`. -/
theorem WithinFactor.sub {r th a b a' b' : K} (hr1 : 1 ≤ r) (hth0 : 0 ≤ th) (hth1 : th * r ^ 2 < 1)
    (hb : b ≤ th * a) (ha' : WithinFactor r a a') (hb' : WithinFactor r b b') :
    WithinFactor (r * (1 - th) / (1 - th * r ^ 2)) (a - b) (a' - b') := by
  have hr0 : 0 < r := by linarith
  have hD : 0 < 1 - th * r ^ 2 := by linarith
  have ha := ha'.left_nonneg hr0
  have hb0 := hb'.left_nonneg hr0
  have hr2 : 1 ≤ r ^ 2 := one_le_pow₀ hr1
  have hth : th < 1 := by nlinarith
  have e1 : a ≤ r * a' := ha'.2.2
  have e2 : a' ≤ r * a := ha'.2.1
  have e3 : b ≤ r * b' := hb'.2.2
  have e4 : b' ≤ r * b := hb'.2.1
  have hb1 : b' * r ≤ th * r ^ 2 * a := by nlinarith
  have n1 : 0 ≤ a' - b' := by
    have : 0 ≤ r * (a' - b') := by nlinarith
    nlinarith
  refine ⟨n1, ?_, ?_⟩
  · rw [div_mul_eq_mul_div, le_div_iff₀ hD]
    -- multiply by `r`: `r a' - r b' ≤ r² a - b`
    have k1 : r * (a' - b') ≤ r ^ 2 * a - b := by nlinarith
    have k2 : (r ^ 2 * a - b) * (1 - th * r ^ 2) ≤ r ^ 2 * (1 - th) * (a - b) := by
      have q : 0 ≤ (r ^ 2 * (1 - th) - (1 - th * r ^ 2)) * (th * a - b) :=
        mul_nonneg (by nlinarith) (by linarith)
      nlinarith [mul_nonneg (mul_nonneg hth0 ha) (sq_nonneg (r ^ 2 - 1))]
    have k3 : r * ((a' - b') * (1 - th * r ^ 2)) ≤ r * (r * (1 - th) * (a - b)) := by
      calc r * ((a' - b') * (1 - th * r ^ 2)) = r * (a' - b') * (1 - th * r ^ 2) := by ring
        _ ≤ (r ^ 2 * a - b) * (1 - th * r ^ 2) := mul_le_mul_of_nonneg_right k1 hD.le
        _ ≤ _ := k2
        _ = _ := by ring
    exact le_of_mul_le_mul_left k3 hr0
  · rw [div_mul_eq_mul_div, le_div_iff₀ hD]
    have k1 : a - r ^ 2 * b ≤ r * (a' - b') := by nlinarith
    have k2 : (a - b) * (1 - th * r ^ 2) ≤ (1 - th) * (a - r ^ 2 * b) := by
      have q : 0 ≤ (r ^ 2 - 1) * (th * a - b) := mul_nonneg (by linarith) (by linarith)
      nlinarith
    calc (a - b) * (1 - th * r ^ 2) ≤ (1 - th) * (a - r ^ 2 * b) := k2
      _ ≤ (1 - th) * (r * (a' - b')) := mul_le_mul_of_nonneg_left k1 (by linarith)
      _ = _ := by ring

theorem one_le_subFactor {r th : K} (hr1 : 1 ≤ r) (hth0 : 0 ≤ th) (hth1 : th * r ^ 2 < 1) :
    1 ≤ r * (1 - th) / (1 - th * r ^ 2) := by
  have hr2 : 1 ≤ r ^ 2 := one_le_pow₀ hr1
  have hth : th < 1 := by nlinarith
  rw [le_div_iff₀ (by linarith)]
  nlinarith [mul_nonneg hth0 (by linarith : (0 : K) ≤ r ^ 2 - 1), mul_nonneg hth0 (by linarith : (0:K) ≤ r - 1)]

/-! ## One cell -/

theorem edge2_near {rnd : K → K} {r th : K} (hr : RoundsWithin r rnd) (hr1 : 1 ≤ r) (hth0 : 0 ≤ th)
    (hth1 : th * r ^ 2 < 1) {s : K} (hs : s = r * (1 - th) / (1 - th * r ^ 2))
    {c d xsS old ext off off' e e' m dx xsT : K}
    (hc : 1 ≤ c) (hd : 1 ≤ d) (hq : 0 ≤ xsS * old) (hext : 0 ≤ ext) (hoff : WithinFactor d off off')
    (he : WithinFactor c e e') (hT : 0 ≤ xsT) (hm : 0 < m / dx) (hfine : 1 / 2 * xsT ≤ th * (m / dx)) :
    WithinFactor (c * (s * d * r ^ 7)) (Rounded.edge2 id xsS old ext off e m dx xsT)
      (Rounded.edge2 rnd xsS old ext off' e' m dx xsT) := by
  have hs1 : 1 ≤ s := by rw [hs]; exact one_le_subFactor hr1 hth0 hth1
  have hr0 : 0 < r := by linarith
  have hc0 : 0 < c := by linarith
  have hd0 : 0 < d := by linarith
  have hs0 : 0 < s := by linarith
  have hb : 0 ≤ 1 / 2 * xsT := by positivity
  have na := hr (m / dx) hm.le
  have nb := hr (1 / 2 * xsT) hb
  have nsub := WithinFactor.sub hr1 hth0 hth1 hfine na nb
  rw [← hs] at nsub
  have ncoef := nsub.round hr hs0 hr0
  have nden := (na.add nb).round hr hr0 hr0
  have nprod := (he.mul hc0 (mul_pos hs0 hr0) ncoef).round hr (mul_pos hc0 (mul_pos hs0 hr0)) hr0
  -- the source
  have n1 := hr _ hq
  have n2 := (n1.add (WithinFactor.refl hr1 hext)).round hr hr0 hr0
  have hr2 : 1 ≤ r * r := by nlinarith
  have h2 : r * r ≤ d * (r * r) := le_mul_of_one_le_left (by positivity) hd
  have h3 : d ≤ d * (r * r) := le_mul_of_one_le_right hd0.le hr2
  have n3 := ((n2.mono (by positivity) h2).add (hoff.mono hd0 h3)).round hr (by positivity) hr0
  -- numerator
  have hcs : 1 ≤ c * s := by nlinarith
  have h4 : d * (r * r) * r ≤ c * s * d * r ^ 3 := by
    calc d * (r * r) * r = 1 * (d * r ^ 3) := by ring
      _ ≤ (c * s) * (d * r ^ 3) := mul_le_mul_of_nonneg_right hcs (by positivity)
      _ = _ := by ring
  have h5 : c * (s * r) * r ≤ c * s * d * r ^ 3 := by
    have : 1 ≤ d * r := by nlinarith
    calc c * (s * r) * r = (c * s * r ^ 2) * 1 := by ring
      _ ≤ (c * s * r ^ 2) * (d * r) := mul_le_mul_of_nonneg_left this (by positivity)
      _ = _ := by ring
  have n4 := ((n3.mono (by positivity) h4).add (nprod.mono (by positivity) h5)).round hr
    (by positivity) hr0
  have hden : 0 < m / dx + 1 / 2 * xsT := by linarith
  have n5 := (n4.div (by positivity) (by positivity) hden nden).round hr (by positivity) hr0
  have e : c * s * d * r ^ 3 * r * (r * r) * r = c * (s * d * r ^ 7) := by ring
  rw [e] at n5
  exact n5

theorem increment_near {rnd : K → K} {r : K} (hr : RoundsWithin r rnd) (hr1 : 1 ≤ r) {c w e1 e2 e1' e2' : K}
    (hc : 1 ≤ c) (hw : 0 ≤ w) (h1 : WithinFactor c e1 e1') (h2 : WithinFactor c e2 e2') :
    WithinFactor (r ^ 3 * c) (Rounded.increment id w e1 e2) (Rounded.increment rnd w e1' e2') := by
  have hr0 : 0 < r := by linarith
  have hc0 : 0 < c := by linarith
  have n1 := hr (1 / 2 * w) (by positivity)
  have n2 := (h1.add h2).round hr hc0 hr0
  have n3 := (n1.mul hr0 (by positivity) n2).round hr (by positivity) hr0
  have e : r * (c * r) * r = r ^ 3 * c := by ring
  rw [e] at n3
  exact n3

theorem addAtR_near {rnd : K → K} {r : K} (hr : RoundsWithin r rnd) (hr1 : 1 ≤ r) {c x y v v' : K}
    (hc : 1 ≤ c) (h : WithinFactor c x y) (hv : WithinFactor c v v') :
    WithinFactor (c * r) (x + v) (rnd (y + v')) :=
  (h.add hv).round hr (by linarith) (by linarith)

/-! ## One direction -/

theorem loop_rel2 {σ τ : Type*} (P : ℕ → σ → τ → Prop) (n : ℕ) (f : ℕ → σ → σ) (g : ℕ → τ → τ) (s : σ)
    (t : τ) (h0 : P 0 s t) (hs : ∀ i < n, ∀ s t, P i s t → P (i + 1) (f i s) (g i t)) :
    P n (loop n f s) (loop n g t) := by
  induction n with
  | zero => exact h0
  | succ n ih => exact hs n (Nat.lt_succ_self n) _ _ (ih fun i hi => hs i (Nat.lt_succ_of_lt hi))

theorem loopDown_rel2 {σ τ : Type*} (P : ℕ → σ → τ → Prop) (n : ℕ) (f : ℕ → σ → σ) (g : ℕ → τ → τ)
    (s : σ) (t : τ) (h0 : P n s t) (hs : ∀ i < n, ∀ s t, P (i + 1) s t → P i (f i s) (g i t)) :
    P 0 (loopDown n f s) (loopDown n g t) := by
  induction n generalizing s t with
  | zero => exact h0
  | succ n ih =>
    exact ih _ _ (hs n (Nat.lt_succ_self n) _ _ h0) fun i hi => hs i (Nat.lt_succ_of_lt hi)

theorem loopE_rel2 {σ τ ε : Type*} (P : ℕ → σ → τ → Prop) (n : ℕ) (f : ℕ → σ → Except ε σ)
    (g : ℕ → τ → Except ε τ) (s : σ) (t : τ) (h0 : P 0 s t)
    (hs : ∀ i < n, ∀ s t, P i s t → ∃ s' t', f i s = .ok s' ∧ g i t = .ok t' ∧ P (i + 1) s' t') :
    ∃ s' t', loopE n f s = .ok s' ∧ loopE n g t = .ok t' ∧ P n s' t' := by
  induction n with
  | zero => exact ⟨s, t, rfl, rfl, h0⟩
  | succ n ih =>
    obtain ⟨s1, t1, a1, a2, a3⟩ := ih fun i hi => hs i (Nat.lt_succ_of_lt hi)
    obtain ⟨s2, t2, b1, b2, b3⟩ := hs n (Nat.lt_succ_self n) s1 t1 a3
    exact ⟨s2, t2, by rw [loopE_succ, a1]; exact b1, by rw [loopE_succ, a2]; exact b2, b3⟩

/-- The mesh resolves direction `mu` with room to spare: `sigma_i dx_i ≤ th * 2 |mu|`. -/
def FineBy (th : K) (N : ℕ) (mu : K) (dx sigma : ℕ → K) : Prop :=
  ∀ i < N, sigma i * dx i ≤ th * (2 * |mu|)

theorem half_le_of_fineBy {th m dx s : K} (hdx : 0 < dx) (h : s * dx ≤ th * (2 * m)) :
    1 / 2 * s ≤ th * (m / dx) := by
  rw [← mul_div_assoc, le_div_iff₀ hdx]
  linarith

theorem rounded_dir_near {rnd : K → K} {r th : K} (hr : RoundsWithin r rnd) (hr1 : 1 ≤ r) (hth0 : 0 ≤ th)
    (hth1 : th * r ^ 2 < 1) {s : K} (hs : s = r * (1 - th) / (1 - th * r ^ 2)) {N : ℕ}
    {flux flux' fluxOld xsTotal xsScatter off off' ext : ℕ → K} {e e' : K} {mm : ℕ → ℕ} {dx : ℕ → K}
    {mu w : K} {c d phi S : K} (hS : S = s * d * r ^ 7)
    (hphys : Physical N dx (fun i => xsTotal (mm i)))
    (hfine : FineBy th N mu dx (fun i => xsTotal (mm i)))
    (hq : ∀ i < N, 0 ≤ xsScatter (mm i) * fluxOld i) (hext : ∀ i < N, 0 ≤ ext i)
    (hoff : ∀ i < N, WithinFactor d (off i) (off' i)) (hw : 0 ≤ w) (hc : 1 ≤ c) (hd : 1 ≤ d)
    (hphi : r ^ 3 * (c * S ^ N) ≤ phi) (hflux : ∀ j, WithinFactor phi (flux j) (flux' j))
    (he : WithinFactor c e e') :
    (0 < mu → WithinFactor (c * S ^ N)
        (Rounded.forwardIso id N flux fluxOld xsTotal xsScatter off ext e mm dx mu w).2
        (Rounded.forwardIso rnd N flux' fluxOld xsTotal xsScatter off' ext e' mm dx mu w).2 ∧
      ∀ j, WithinFactor (phi * r)
        ((Rounded.forwardIso id N flux fluxOld xsTotal xsScatter off ext e mm dx mu w).1 j)
        ((Rounded.forwardIso rnd N flux' fluxOld xsTotal xsScatter off' ext e' mm dx mu w).1 j)) ∧
    (mu < 0 → WithinFactor (c * S ^ N)
        (Rounded.backwardIso id N flux fluxOld xsTotal xsScatter off ext e mm dx mu w).2
        (Rounded.backwardIso rnd N flux' fluxOld xsTotal xsScatter off' ext e' mm dx mu w).2 ∧
      ∀ j, WithinFactor (phi * r)
        ((Rounded.backwardIso id N flux fluxOld xsTotal xsScatter off ext e mm dx mu w).1 j)
        ((Rounded.backwardIso rnd N flux' fluxOld xsTotal xsScatter off' ext e' mm dx mu w).1 j)) := by
  have hs1 : 1 ≤ s := by rw [hs]; exact one_le_subFactor hr1 hth0 hth1
  have hr0 : 0 < r := by linarith
  have hS1 : 1 ≤ S := by
    have h7 : 1 ≤ r ^ 7 := one_le_pow₀ hr1
    have : 1 ≤ s * d := by nlinarith
    rw [hS]; nlinarith
  have hSk : ∀ k, 1 ≤ S ^ k := fun k => one_le_pow₀ hS1
  have hcS : ∀ k, 1 ≤ c * S ^ k := fun k => by nlinarith [hSk k]
  have hmonoS : ∀ k ≤ N, c * S ^ k ≤ c * S ^ N := fun k hk =>
    mul_le_mul_of_nonneg_left (pow_le_pow_right₀ hS1 hk) (by linarith)
  have hr3 : 1 ≤ r ^ 3 := one_le_pow₀ hr1
  have hphi1 : 1 ≤ phi := by nlinarith [hcS N]
  have hphi0 : 0 < phi := by linarith
  have hphir : phi ≤ phi * r := le_mul_of_one_le_right hphi0.le hr1
  -- the step shared by the two directions
  have step : ∀ (m : K) (k i : ℕ) (a a' : K), k + 1 ≤ N → i < N → 0 < m → m = |mu| →
      WithinFactor (c * S ^ k) a a' →
      WithinFactor (c * S ^ (k + 1))
        (Rounded.edge2 id (xsScatter (mm i)) (fluxOld i) (ext i) (off i) a m (dx i) (xsTotal (mm i)))
        (Rounded.edge2 rnd (xsScatter (mm i)) (fluxOld i) (ext i) (off' i) a' m (dx i) (xsTotal (mm i))) ∧
      WithinFactor phi
        (Rounded.increment id w a
          (Rounded.edge2 id (xsScatter (mm i)) (fluxOld i) (ext i) (off i) a m (dx i) (xsTotal (mm i))))
        (Rounded.increment rnd w a' (Rounded.edge2 rnd (xsScatter (mm i)) (fluxOld i) (ext i) (off' i) a'
          m (dx i) (xsTotal (mm i)))) := by
    intro m k i a a' hk hi hm hmu ha
    have hf := hfine i hi
    rw [← hmu] at hf
    have h2 := edge2_near hr hr1 hth0 hth1 hs (hcS k) hd (hq i hi) (hext i hi) (hoff i hi) ha
      (hphys i hi).2 (div_pos hm (hphys i hi).1) (half_le_of_fineBy (hphys i hi).1 hf)
    have e1 : c * S ^ k * (s * d * r ^ 7) = c * S ^ (k + 1) := by rw [← hS, pow_succ]; ring
    rw [e1] at h2
    refine ⟨h2, ?_⟩
    have h3 := increment_near hr hr1 (hcS N) hw
      (ha.mono (by linarith [hcS k]) (hmonoS k (by omega)))
      (h2.mono (by linarith [hcS (k + 1)]) (hmonoS (k + 1) hk))
    exact h3.mono (by nlinarith [hcS N]) hphi
  constructor
  · intro hp
    have := loop_rel2 (fun i (s t : (ℕ → K) × K) => WithinFactor (c * S ^ i) s.2 t.2 ∧
        (∀ j, j < i → WithinFactor (phi * r) (s.1 j) (t.1 j)) ∧
        (∀ j, i ≤ j → WithinFactor phi (s.1 j) (t.1 j))) N
      (fun ii (s : (ℕ → K) × K) =>
        let mat := mm ii
        let e2 := Rounded.edge2 id (xsScatter mat) (fluxOld ii) (ext ii) (off ii) s.2 mu (dx ii)
          (xsTotal mat)
        (Rounded.addAtR id s.1 ii (Rounded.increment id w s.2 e2), e2))
      (fun ii (s : (ℕ → K) × K) =>
        let mat := mm ii
        let e2 := Rounded.edge2 rnd (xsScatter mat) (fluxOld ii) (ext ii) (off' ii) s.2 mu (dx ii)
          (xsTotal mat)
        (Rounded.addAtR rnd s.1 ii (Rounded.increment rnd w s.2 e2), e2)) (flux, e) (flux', e')
      ⟨by simpa using he, fun j hj => absurd hj (Nat.not_lt_zero _), fun j _ => hflux j⟩
      (fun i hi s t hst => by
        obtain ⟨k1, k2⟩ := step mu i i s.2 t.2 (by omega) hi hp (abs_of_pos hp).symm hst.1
        refine ⟨k1, fun j hj => ?_, fun j hj => ?_⟩
        · simp only [addAtR_apply]
          by_cases hji : j = i
          · subst hji
            simp only [if_true]
            exact addAtR_near hr hr1 hphi1 (hst.2.2 j (le_refl _)) k2
          · simp only [if_neg hji]
            exact hst.2.1 j (by omega)
        · simp only [addAtR_apply]
          rw [if_neg (by omega), if_neg (by omega)]
          exact hst.2.2 j (by omega))
    refine ⟨this.1, fun j => ?_⟩
    by_cases hj : j < N
    · exact this.2.1 j hj
    · exact (this.2.2 j (by omega)).mono hphi0 hphir
  · intro hn
    have := loopDown_rel2 (fun i (s t : (ℕ → K) × K) => WithinFactor (c * S ^ (N - i)) s.2 t.2 ∧
        (∀ j, i ≤ j → WithinFactor (phi * r) (s.1 j) (t.1 j)) ∧
        (∀ j, j < i → WithinFactor phi (s.1 j) (t.1 j))) N
      (fun ii (s : (ℕ → K) × K) =>
        let mat := mm ii
        let e2 := Rounded.edge2 id (xsScatter mat) (fluxOld ii) (ext ii) (off ii) s.2 (-mu) (dx ii)
          (xsTotal mat)
        (Rounded.addAtR id s.1 ii (Rounded.increment id w s.2 e2), e2))
      (fun ii (s : (ℕ → K) × K) =>
        let mat := mm ii
        let e2 := Rounded.edge2 rnd (xsScatter mat) (fluxOld ii) (ext ii) (off' ii) s.2 (-mu) (dx ii)
          (xsTotal mat)
        (Rounded.addAtR rnd s.1 ii (Rounded.increment rnd w s.2 e2), e2)) (flux, e) (flux', e')
      ⟨by simpa using he, fun j _ => (hflux j).mono hphi0 hphir, fun j _ => hflux j⟩
      (fun i hi s t hst => by
        obtain ⟨k1, k2⟩ := step (-mu) (N - (i + 1)) i s.2 t.2 (by omega) hi (by linarith)
          (abs_of_neg hn).symm hst.1
        rw [show N - (i + 1) + 1 = N - i by omega] at k1
        refine ⟨k1, fun j hj => ?_, fun j hj => ?_⟩
        · simp only [addAtR_apply]
          by_cases hji : j = i
          · subst hji
            simp only [if_true]
            exact addAtR_near hr hr1 hphi1 (hst.2.2 j (by omega)) k2
          · simp only [if_neg hji]
            exact hst.2.1 j (by omega)
        · simp only [addAtR_apply]
          rw [if_neg (by omega), if_neg (by omega)]
          exact hst.2.2 j (by omega))
    have h1 := this.1
    rw [Nat.sub_zero] at h1
    exact ⟨h1, fun j => this.2.1 j (Nat.zero_le _)⟩

/-! ## The off-group source -/

theorem offScatter_near {rnd : K → K} {r : K} (hr : RoundsWithin r rnd) (hr1 : 1 ≤ r) {G : ℕ}
    {f old : ℕ → ℕ → K} {mm : ℕ → ℕ} {xs : ℕ → ℕ → ℕ → K} {g i : ℕ} (hg : g < G)
    (hxs : ∀ g' < G, 0 ≤ xs (mm i) g g') (hf : ∀ g' < g, 0 ≤ f i g') (hold : ∀ g' < G, 0 ≤ old i g') :
    WithinFactor (r ^ G) (offScatter G f old mm xs g i)
      (Rounded.offScatter rnd G f old mm xs g i) := by
  have hr0 : 0 < r := by linarith
  have step : ∀ (k : ℕ) (a b x : K), 0 ≤ x → WithinFactor (r ^ (k + 1)) a b →
      WithinFactor (r ^ (k + 1 + 1)) (a + x) (rnd (b + rnd x)) := by
    intro k a b x hx hab
    have h1 := (hr x hx).mono hr0 (show r ≤ r ^ (k + 1) by
      calc r = r ^ 1 := (pow_one r).symm
        _ ≤ r ^ (k + 1) := pow_le_pow_right₀ hr1 (by omega))
    have := (hab.add h1).round hr (by positivity) hr0
    rwa [← pow_succ] at this
  unfold offScatter Rounded.offScatter
  simp only
  have A1 := loop_rel2 (fun k (a b : K) => WithinFactor (r ^ (k + 1)) a b) g
    (fun og acc => acc + xs (mm i) g og * f i og)
    (fun og acc => rnd (acc + rnd (xs (mm i) g og * f i og))) 0 0
    (WithinFactor.refl (one_le_pow₀ hr1) (le_refl _))
    (fun k hk a b hab => step k a b _ (mul_nonneg (hxs k (by omega)) (hf k hk)) hab)
  have A2 := loop_rel2 (fun k (a b : K) => WithinFactor (r ^ (g + k + 1)) a b) (G - (g + 1))
    (fun k acc => acc + xs (mm i) g (g + 1 + k) * old i (g + 1 + k))
    (fun k acc => rnd (acc + rnd (xs (mm i) g (g + 1 + k) * old i (g + 1 + k)))) _ _ A1
    (fun k hk a b hab => step (g + k) a b _
      (mul_nonneg (hxs _ (by omega)) (hold _ (by omega))) hab)
  rwa [show g + (G - (g + 1)) + 1 = G by omega] at A2

/-! ## One pass over the directions -/

theorem rounded_sweep_near {rnd : K → K} {r th : K} (hr : RoundsWithin r rnd) (hr1 : 1 ≤ r)
    (hth0 : 0 ≤ th) (hth1 : th * r ^ 2 < 1) {s : K} (hs : s = r * (1 - th) / (1 - th * r ^ 2))
    {N A : ℕ} {d S Q : K} (hd : 1 ≤ d) (hS : S = s * d * r ^ 7) (hQ : Q = r * S ^ N)
    (xsTotal xsScatter off off' : ℕ → K) (external boundary : Arr2 K) (mm : ℕ → ℕ) (dx mu w : ℕ → K)
    (bcL bcR : Bool) (fluxOld : ℕ → K) (hne : ∀ n < A, mu n ≠ 0)
    (hphys : Physical N dx (fun i => xsTotal (mm i)))
    (hfine : ∀ n < A, FineBy th N (mu n) dx (fun i => xsTotal (mm i)))
    (hdata : NonnegData N A mu w external boundary)
    (hsc : ∀ i < N, 0 ≤ xsScatter (mm i)) (hoff : ∀ i < N, WithinFactor d (off i) (off' i))
    (hold : ∀ i < N, 0 ≤ fluxOld i) :
    ∃ flux flux', isotropicSweep N A xsTotal xsScatter off external boundary mm dx mu w bcL bcR false
        fluxOld = .ok flux ∧
      Rounded.isotropicSweep rnd N A xsTotal xsScatter off' external boundary mm dx mu w bcL bcR
        fluxOld = .ok flux' ∧
      ∀ i, WithinFactor (r ^ (A + 3) * Q ^ 2) (flux i) (flux' i) := by
  have hs1 : 1 ≤ s := by rw [hs]; exact one_le_subFactor hr1 hth0 hth1
  have hr0 : 0 < r := by linarith
  have hS1 : 1 ≤ S := by
    have h7 : 1 ≤ r ^ 7 := one_le_pow₀ hr1
    have : 1 ≤ s * d := by nlinarith
    rw [hS]; nlinarith
  have hSN : 1 ≤ S ^ N := one_le_pow₀ hS1
  have hQ1 : 1 ≤ Q := by rw [hQ]; nlinarith
  have hQ0 : 0 < Q := by linarith
  have hrQ : r ≤ Q := by rw [hQ]; exact le_mul_of_one_le_right hr0.le hSN
  have hq : ∀ i < N, 0 ≤ xsScatter (mm i) * fluxOld i := fun i hi =>
    mul_nonneg (hsc i hi) (hold i hi)
  -- the reflector
  have refl : ∀ (n : ℕ) (R R' : ℕ → K) (o o' : K), n < A →
      (∀ m, n ≤ m → m < A → (n ≤ A - 1 - m → R m = 0 ∧ R' m = 0) ∧ WithinFactor Q (R m) (R' m)) →
      (n ≤ A - 1 - n → WithinFactor Q o o') →
      ∀ m, n + 1 ≤ m → m < A →
        (n + 1 ≤ A - 1 - m → reflectorCorrector A R mu o n bcL bcR m = 0 ∧
          reflectorCorrector A R' mu o' n bcL bcR m = 0) ∧
        WithinFactor Q (reflectorCorrector A R mu o n bcL bcR m)
          (reflectorCorrector A R' mu o' n bcL bcR m) := by
    intro n R R' o o' hn h1 h2 m hm hmA
    obtain ⟨k1, k2⟩ := h1 m (by omega) hmA
    unfold reflectorCorrector
    by_cases hc : (0 < mu n ∧ bcR = true) ∨ (mu n < 0 ∧ bcL = true)
    · rw [if_pos hc, if_pos hc, setAt_apply, setAt_apply]
      by_cases hmn : m = A - n - 1
      · rw [if_pos hmn, if_pos hmn]
        exact ⟨fun h => absurd h (by omega), h2 (by omega)⟩
      · rw [if_neg hmn, if_neg hmn]
        exact ⟨fun h => k1 (by omega), k2⟩
    · rw [if_neg hc, if_neg hc]
      exact ⟨fun h => k1 (by omega), k2⟩
  -- the inflow factor
  have inflowN : ∀ (n : ℕ) (R R' b : K), 0 ≤ b → (n ≤ A - 1 - n → R = 0 ∧ R' = 0) →
      WithinFactor Q R R' →
      ∃ c, 1 ≤ c ∧ c ≤ Q * r ∧ (n ≤ A - 1 - n → c = r) ∧ WithinFactor c (R + b) (rnd (R' + b)) := by
    intro n R R' b hb h1 h2
    by_cases hc : n ≤ A - 1 - n
    · obtain ⟨e1, e2⟩ := h1 hc
      refine ⟨r, hr1, le_mul_of_one_le_left hr0.le hQ1, fun _ => rfl, ?_⟩
      rw [e1, e2, zero_add]
      exact hr b hb
    · exact ⟨Q * r, by nlinarith, le_refl _, fun h => absurd h hc,
        (h2.add (WithinFactor.refl hQ1 hb)).round hr hQ0 hr0⟩
  have hfac : ∀ (n : ℕ) (c : K), 1 ≤ c → c ≤ Q * r → r ^ 3 * (c * S ^ N) ≤ r ^ 3 * Q ^ 2 * r ^ n := by
    intro n c hc1 hcQ
    have h1 : c * S ^ N ≤ Q ^ 2 := by
      calc c * S ^ N ≤ Q * r * S ^ N := mul_le_mul_of_nonneg_right hcQ (by linarith)
        _ = Q ^ 2 := by rw [pow_two, mul_assoc]; congr 1; exact hQ.symm
    have hn1 : 1 ≤ r ^ n := one_le_pow₀ hr1
    calc r ^ 3 * (c * S ^ N) ≤ r ^ 3 * Q ^ 2 := mul_le_mul_of_nonneg_left h1 (by positivity)
      _ ≤ r ^ 3 * Q ^ 2 * r ^ n := le_mul_of_one_le_right (by positivity) hn1
  obtain ⟨s1, s2, g1, g2, g3⟩ := loopE_rel2 (fun n (s t : AngleState K (ℕ → K)) =>
      (∀ j, WithinFactor (r ^ 3 * Q ^ 2 * r ^ n) (s.acc j) (t.acc j)) ∧
      (∀ m, n ≤ m → m < A → (n ≤ A - 1 - m → s.reflector m = 0 ∧ t.reflector m = 0) ∧
        WithinFactor Q (s.reflector m) (t.reflector m))) A
    (fun nn (s : AngleState K (ℕ → K)) =>
    if 0 < mu nn then
      let r := Rounded.forwardIso id N s.acc fluxOld xsTotal xsScatter off
        (fun ii => external.val ii (bidx external.angles nn))
        (id (s.reflector nn + boundary.val 0 (bidx boundary.angles nn))) mm dx (mu nn) (w nn)
      .ok ⟨r.1, reflectorCorrector A s.reflector mu r.2 nn bcL bcR, r.2⟩
    else if mu nn < 0 then
      let r := Rounded.backwardIso id N s.acc fluxOld xsTotal xsScatter off
        (fun ii => external.val ii (bidx external.angles nn))
        (id (s.reflector nn + boundary.val 1 (bidx boundary.angles nn))) mm dx (mu nn) (w nn)
      .ok ⟨r.1, reflectorCorrector A s.reflector mu r.2 nn bcL bcR, r.2⟩
    else .error PyErr.discontinuity)
    (fun nn (s : AngleState K (ℕ → K)) =>
    if 0 < mu nn then
      let r := Rounded.forwardIso rnd N s.acc fluxOld xsTotal xsScatter off'
        (fun ii => external.val ii (bidx external.angles nn))
        (rnd (s.reflector nn + boundary.val 0 (bidx boundary.angles nn))) mm dx (mu nn) (w nn)
      .ok ⟨r.1, reflectorCorrector A s.reflector mu r.2 nn bcL bcR, r.2⟩
    else if mu nn < 0 then
      let r := Rounded.backwardIso rnd N s.acc fluxOld xsTotal xsScatter off'
        (fun ii => external.val ii (bidx external.angles nn))
        (rnd (s.reflector nn + boundary.val 1 (bidx boundary.angles nn))) mm dx (mu nn) (w nn)
      .ok ⟨r.1, reflectorCorrector A s.reflector mu r.2 nn bcL bcR, r.2⟩
    else .error PyErr.discontinuity)
    ⟨fun _ => 0, fun _ => 0, 0⟩ ⟨fun _ => 0, fun _ => 0, 0⟩
    ⟨fun j => WithinFactor.refl (by
        rw [pow_zero, mul_one]
        nlinarith [one_le_pow₀ (n := 3) hr1, one_le_pow₀ (n := 2) hQ1]) (le_refl _),
      fun m _ _ => ⟨fun _ => ⟨rfl, rfl⟩, WithinFactor.refl hQ1 (le_refl _)⟩⟩
    (fun n hn s t hst => by
      obtain ⟨r1, r2⟩ := hst.2 n (le_refl _) hn
      rcases lt_or_gt_of_ne (hne n hn) with hneg | hpos
      · obtain ⟨c, c1, c2, c3, c4⟩ := inflowN n _ _ _ (hdata.right n hn hneg) r1 r2
        obtain ⟨d1, d2⟩ := (rounded_dir_near hr hr1 hth0 hth1 hs hS hphys (hfine n hn) hq
          (fun i hi => hdata.ext n hn i hi) hoff (hdata.weights n hn) c1 hd (hfac n c c1 c2) hst.1 c4).2 hneg
        rw [if_neg (not_lt.mpr hneg.le), if_pos hneg, if_neg (not_lt.mpr hneg.le), if_pos hneg]
        refine ⟨_, _, rfl, rfl, fun j => ?_, refl n _ _ _ _ hn hst.2 fun h => ?_⟩
        · have := d2 j
          rw [pow_succ r n, ← mul_assoc]
          exact this
        · have := d1
          rw [c3 h, ← hQ] at this
          exact this
      · obtain ⟨c, c1, c2, c3, c4⟩ := inflowN n _ _ _ (hdata.left n hn hpos) r1 r2
        obtain ⟨d1, d2⟩ := (rounded_dir_near hr hr1 hth0 hth1 hs hS hphys (hfine n hn) hq
          (fun i hi => hdata.ext n hn i hi) hoff (hdata.weights n hn) c1 hd (hfac n c c1 c2) hst.1 c4).1 hpos
        rw [if_pos hpos, if_pos hpos]
        refine ⟨_, _, rfl, rfl, fun j => ?_, refl n _ _ _ _ hn hst.2 fun h => ?_⟩
        · have := d2 j
          rw [pow_succ r n, ← mul_assoc]
          exact this
        · have := d1
          rw [c3 h, ← hQ] at this
          exact this)
  refine ⟨s1.acc, s2.acc, ?_, ?_, fun i => ?_⟩
  · rw [← rounded_isotropicSweep_id]
    unfold Rounded.isotropicSweep Rounded.angleLoop
    simp only
    rw [g1]
    rfl
  · unfold Rounded.isotropicSweep Rounded.angleLoop
    simp only
    rw [g2]
    rfl
  · have := g3.1 i
    have e : r ^ 3 * Q ^ 2 * r ^ A = r ^ (A + 3) * Q ^ 2 := by rw [pow_add]; ring
    rwa [e] at this

/-! ## The size of the factor -/

theorem bound_mul {x y a b : K} (hx : 0 ≤ x) (hy : 0 ≤ y) (ha : 0 ≤ a) (hb : 0 ≤ b)
    (h1 : x * (1 - a) ≤ 1) (h2 : y * (1 - b) ≤ 1) : x * y * (1 - (a + b)) ≤ 1 := by
  by_cases hab : a + b < 1
  · have k1 : 1 - (a + b) ≤ (1 - a) * (1 - b) := by nlinarith
    calc x * y * (1 - (a + b)) ≤ x * y * ((1 - a) * (1 - b)) :=
          mul_le_mul_of_nonneg_left k1 (mul_nonneg hx hy)
      _ = (x * (1 - a)) * (y * (1 - b)) := by ring
      _ ≤ 1 * 1 := mul_le_mul h1 h2 (mul_nonneg hy (by linarith)) zero_le_one
      _ = 1 := one_mul 1
  · have : x * y * (1 - (a + b)) ≤ 0 :=
      mul_nonpos_of_nonneg_of_nonpos (mul_nonneg hx hy) (by linarith)
    linarith

theorem bound_pow {x a : K} (hx : 0 ≤ x) (ha : 0 ≤ a) (h : x * (1 - a) ≤ 1) (n : ℕ) :
    x ^ n * (1 - n * a) ≤ 1 := by
  induction n with
  | zero => simp
  | succ n ih =>
    have := bound_mul (pow_nonneg hx n) hx (mul_nonneg (Nat.cast_nonneg n) ha) ha ih h
    rw [pow_succ]
    push_cast
    rw [show ((n : K) + 1) * a = n * a + a by ring]
    exact this

/-- The number of roundings that a cell-averaged flux accumulates in one pass over a slab of `N` cells
with `A` directions and `G` groups, when `sigma dx ≤ th * 2 |mu|`. -/
def sweepCost (th : K) (G N A : ℕ) : K := (A : K) + 5 + 2 * N * (G + 7 + 2 / (1 - th))

theorem sweepFactor_le {u th : K} {G N A : ℕ} (hN : 0 < N) (hu0 : 0 ≤ u) (hth0 : 0 ≤ th)
    (hth1 : th < 1) (hcost : sweepCost th G N A * u < 1) {r : K} (hr : r = 1 / (1 - u)) :
    th * r ^ 2 < 1 ∧ u < 1 ∧
    r ^ (A + 3) * (r * (r * (1 - th) / (1 - th * r ^ 2) * r ^ G * r ^ 7) ^ N) ^ 2
      ≤ 1 / (1 - sweepCost th G N A * u) := by
  have hd : 0 < 1 - th := by linarith
  have hN1 : (1 : K) ≤ N := by exact_mod_cast hN
  have hA0 : (0 : K) ≤ A := Nat.cast_nonneg A
  have hG0 : (0 : K) ≤ G := Nat.cast_nonneg G
  have hz : 0 ≤ 2 / (1 - th) := by positivity
  have hu : u < 1 := by
    unfold sweepCost at hcost
    have : 5 * u ≤ ((A : K) + 5 + 2 * N * (G + 7 + 2 / (1 - th))) * u := by
      refine mul_le_mul_of_nonneg_right ?_ hu0
      have : 0 ≤ 2 * (N : K) * (G + 7 + 2 / (1 - th)) := by positivity
      linarith
    linarith
  have h4 : 4 * u < 1 - th := by
    have k : 2 * (2 / (1 - th)) * u ≤ sweepCost th G N A * u := by
      refine mul_le_mul_of_nonneg_right ?_ hu0
      unfold sweepCost
      nlinarith [mul_nonneg (by linarith : (0 : K) ≤ N - 1) hz, mul_nonneg (by linarith : (0 : K) ≤ N) hG0]
    have k2 : 2 * (2 / (1 - th)) * u < 1 := by linarith
    have e : 2 * (2 / (1 - th)) * u = 4 * u / (1 - th) := by ring
    rw [e, div_lt_one hd] at k2
    exact k2
  have hp : 0 < 1 - u := by linarith
  have hr1 : 1 ≤ r := by rw [hr, le_div_iff₀ hp]; linarith
  have hr0 : 0 < r := by linarith
  have hru : r * (1 - u) = 1 := by rw [hr]; field_simp
  have hth2 : th * r ^ 2 < 1 := by
    rw [hr, div_pow, one_pow, mul_one_div, div_lt_one (by positivity)]
    nlinarith [mul_nonneg hu0 hu0]
  refine ⟨hth2, hu, ?_⟩
  obtain ⟨s, hs⟩ : ∃ s, s = r * (1 - th) / (1 - th * r ^ 2) := ⟨_, rfl⟩
  rw [← hs]
  have hs1 : 1 ≤ s := by rw [hs]; exact one_le_subFactor hr1 hth0 hth2
  have hsb : s * (1 - 2 / (1 - th) * u) ≤ 1 := by
    rw [hs, div_mul_eq_mul_div, div_le_one (by linarith)]
    -- everything times `(1 - u)^2`
    have e1 : (1 - th) * (1 - 2 / (1 - th) * u) = 1 - th - 2 * u := by field_simp
    have e2 : r * (1 - th) * (1 - 2 / (1 - th) * u) = r * (1 - th - 2 * u) := by
      rw [mul_assoc, e1]
    rw [e2]
    have e3 : r * (1 - th - 2 * u) * (1 - u) ^ 2 = (1 - u) * (1 - th - 2 * u) := by
      calc r * (1 - th - 2 * u) * (1 - u) ^ 2 = (r * (1 - u)) * ((1 - u) * (1 - th - 2 * u)) := by ring
        _ = _ := by rw [hru, one_mul]
    have e4 : (1 - th * r ^ 2) * (1 - u) ^ 2 = (1 - u) ^ 2 - th := by
      calc (1 - th * r ^ 2) * (1 - u) ^ 2 = (1 - u) ^ 2 - th * (r * (1 - u)) ^ 2 := by ring
        _ = _ := by rw [hru]; ring
    have hpp : 0 < (1 - u) ^ 2 := by positivity
    refine le_of_mul_le_mul_right ?_ hpp
    rw [e3, e4]
    nlinarith [mul_nonneg hu0 hth0, mul_nonneg hu0 hu0, mul_nonneg hu0 (by linarith : (0:K) ≤ 1 - th - 2 * u)]
  have hrb : r * (1 - u) ≤ 1 := hru.le
  have hzu : 0 ≤ 2 / (1 - th) * u := mul_nonneg hz hu0
  have hGu : 0 ≤ (G : K) * u := mul_nonneg hG0 hu0
  have b1 := bound_mul (by linarith : (0 : K) ≤ s) (by positivity : 0 ≤ r ^ G) hzu hGu hsb
    (bound_pow hr0.le hu0 hrb G)
  have b2 := bound_mul (by positivity : 0 ≤ s * r ^ G) (by positivity : 0 ≤ r ^ 7)
    (by linarith) (by positivity : (0 : K) ≤ ((7 : ℕ) : K) * u) b1 (bound_pow hr0.le hu0 hrb 7)
  have ha2 : 0 ≤ 2 / (1 - th) * u + (G : K) * u + ((7 : ℕ) : K) * u := by positivity
  have hS0 : 0 ≤ s * r ^ G * r ^ 7 := by positivity
  have b3 := bound_pow hS0 ha2 b2 N
  have b4 := bound_mul hr0.le (pow_nonneg hS0 N) hu0 (mul_nonneg (by linarith : (0 : K) ≤ N) ha2) hrb b3
  have ha4 : 0 ≤ u + N * (2 / (1 - th) * u + (G : K) * u + ((7 : ℕ) : K) * u) :=
    add_nonneg hu0 (mul_nonneg (by linarith) ha2)
  have b5 := bound_pow (mul_nonneg hr0.le (pow_nonneg hS0 N)) ha4 b4 2
  have b6 := bound_mul (pow_nonneg hr0.le (A + 3)) (pow_nonneg (mul_nonneg hr0.le (pow_nonneg hS0 N)) 2)
    (mul_nonneg (Nat.cast_nonneg (A + 3)) hu0) (mul_nonneg (Nat.cast_nonneg 2) ha4)
    (bound_pow hr0.le hu0 hrb (A + 3)) b5
  rw [le_div_iff₀ (by linarith)]
  have e : ((A + 3 : ℕ) : K) * u + ((2 : ℕ) : K) * (u + N * (2 / (1 - th) * u + (G : K) * u + ((7 : ℕ) : K) * u))
      = sweepCost th G N A * u := by
    unfold sweepCost
    push_cast
    ring
  rw [e] at b6
  exact b6

/-! ## C176: one rounded pass -/

/-- The circumstances of C176 and C177: an arithmetic with unit roundoff `u`, a slab with non-negative
data on a mesh with `sigma dx ≤ th * 2 |mu|`, and few enough roundings for the unit roundoff. -/
structure RoundedProblem (rnd : K → K) (u th : K) (p : Problem K) (xsTotal : ℕ → ℕ → K)
    (xs : ℕ → ℕ → ℕ → K) (external boundary : Arr3 K) : Prop where
  unit : 0 ≤ u
  error : RelativeError u rnd
  cells : 0 < p.cells
  fraction0 : 0 ≤ th
  fraction1 : th < 1
  ok : ∀ g < p.groups, SlabOk p xsTotal g
  fine : ∀ g < p.groups, ∀ n < p.angles, FineBy th p.cells (p.angleX n) p.dx (fun i => xsTotal (p.mm i) g)
  data : ∀ g < p.groups, NonnegData p.cells p.angles p.angleX p.angleW
    (external.group (bidx external.groups g)) (boundary.group (bidx boundary.groups g))
  xs : ∀ i < p.cells, ∀ g < p.groups, ∀ g' < p.groups, 0 ≤ xs (p.mm i) g g'
  cost : sweepCost th p.groups p.cells p.angles * u < 1

theorem sweepCost_nonneg {th : K} (hth : th < 1) (G N A : ℕ) : 0 ≤ sweepCost th G N A := by
  unfold sweepCost
  have : 0 < 1 - th := by linarith
  positivity

theorem rounded_pass_near {rnd : K → K} {u th : K} {p : Problem K} {xsTotal : ℕ → ℕ → K}
    {xs : ℕ → ℕ → ℕ → K} {external boundary : Arr3 K}
    (h : RoundedProblem rnd u th p xsTotal xs external boundary) {g : ℕ} (hg : g < p.groups)
    (f old : ℕ → ℕ → K) (a : ℕ → K)
    (hf : ∀ i < p.cells, ∀ g' < p.groups, 0 ≤ f i g') (hold : ∀ i < p.cells, ∀ g' < p.groups, 0 ≤ old i g')
    (ha : ∀ i < p.cells, 0 ≤ a i) :
    ∃ b b', isotropicSweep p.cells p.angles (fun m => xsTotal m g) (fun m => xs m g g)
        (offScatter p.groups f old p.mm xs g) (external.group (bidx external.groups g))
        (boundary.group (bidx boundary.groups g)) p.mm p.dx p.angleX p.angleW p.bcL p.bcR false a = .ok b ∧
      Rounded.isotropicSweep rnd p.cells p.angles (fun m => xsTotal m g) (fun m => xs m g g)
        (Rounded.offScatter rnd p.groups f old p.mm xs g) (external.group (bidx external.groups g))
        (boundary.group (bidx boundary.groups g)) p.mm p.dx p.angleX p.angleW p.bcL p.bcR a = .ok b' ∧
      ∀ i, WithinFactor (1 / (1 - sweepCost th p.groups p.cells p.angles * u)) (b i) (b' i) := by
  obtain ⟨r, hr⟩ : ∃ r : K, r = 1 / (1 - u) := ⟨_, rfl⟩
  obtain ⟨k1, k2, k3⟩ := sweepFactor_le (G := p.groups) (A := p.angles) h.cells h.unit h.fraction0
    h.fraction1 h.cost hr
  have hw := h.error.within h.unit k2
  rw [← hr] at hw
  have hp : 0 < 1 - u := by linarith
  have hr1 : 1 ≤ r := by rw [hr, le_div_iff₀ hp]; linarith [h.unit]
  have hr0 : 0 < r := by linarith
  obtain ⟨b, b', h1, h2, h3⟩ := rounded_sweep_near hw hr1 h.fraction0 k1 rfl
    (N := p.cells) (A := p.angles) (one_le_pow₀ hr1 : 1 ≤ r ^ p.groups) rfl rfl
    (fun m => xsTotal m g) (fun m => xs m g g) (offScatter p.groups f old p.mm xs g)
    (Rounded.offScatter rnd p.groups f old p.mm xs g)
    (external.group (bidx external.groups g)) (boundary.group (bidx boundary.groups g)) p.mm p.dx
    p.angleX p.angleW p.bcL p.bcR a (h.ok g hg).nonzero (h.ok g hg).phys (h.fine g hg) (h.data g hg)
    (fun i hi => h.xs i hi g hg g hg)
    (fun i hi => offScatter_near hw hr1 hg (h.xs i hi g hg) (fun g' hg' => hf i hi g' (by omega))
      (hold i hi)) ha
  have hs1 := one_le_subFactor hr1 h.fraction0 k1
  refine ⟨b, b', h1, h2, fun i => (h3 i).mono ?_ k3⟩
  have : 0 < r * (1 - th) / (1 - th * r ^ 2) := by linarith
  positivity

/-- C176: one pass of the within-group iteration, started from any non-negative fluxes, computed with
rounding, differs in every cell from the pass in exact arithmetic by a relative error of at most
`K u / (1 - K u)`, where `u` is the unit roundoff and `K = A + 5 + 2 N (G + 7 + 2 / (1 - th))`. -/
theorem C176_one_pass {rnd : K → K} {u th : K} {p : Problem K} {xsTotal : ℕ → ℕ → K}
    {xs : ℕ → ℕ → ℕ → K} {external boundary : Arr3 K}
    (h : RoundedProblem rnd u th p xsTotal xs external boundary) {g : ℕ} (hg : g < p.groups)
    (f old : ℕ → ℕ → K) (a : ℕ → K)
    (hf : ∀ i < p.cells, ∀ g' < p.groups, 0 ≤ f i g') (hold : ∀ i < p.cells, ∀ g' < p.groups, 0 ≤ old i g')
    (ha : ∀ i < p.cells, 0 ≤ a i) :
    ∃ b b', isotropicSweep p.cells p.angles (fun m => xsTotal m g) (fun m => xs m g g)
        (offScatter p.groups f old p.mm xs g) (external.group (bidx external.groups g))
        (boundary.group (bidx boundary.groups g)) p.mm p.dx p.angleX p.angleW p.bcL p.bcR false a = .ok b ∧
      Rounded.isotropicSweep rnd p.cells p.angles (fun m => xsTotal m g) (fun m => xs m g g)
        (Rounded.offScatter rnd p.groups f old p.mm xs g) (external.group (bidx external.groups g))
        (boundary.group (bidx boundary.groups g)) p.mm p.dx p.angleX p.angleW p.bcL p.bcR a = .ok b' ∧
      ∀ i, 0 ≤ b i ∧ 0 ≤ b' i ∧ |b' i - b i| ≤ (sweepCost th p.groups p.cells p.angles * u)
        / (1 - sweepCost th p.groups p.cells p.angles * u) * b i := by
  obtain ⟨b, b', h1, h2, h3⟩ := rounded_pass_near h hg f old a hf hold ha
  obtain ⟨k, hk⟩ : ∃ k, k = sweepCost th p.groups p.cells p.angles * u := ⟨_, rfl⟩
  have hc := h.cost
  have hk0 : 0 ≤ k := by rw [hk]; exact mul_nonneg (sweepCost_nonneg h.fraction1 _ _ _) h.unit
  rw [← hk] at hc h3
  rw [← hk]
  have hp : 0 < 1 - k := by linarith
  have h1k : 1 ≤ 1 / (1 - k) := by rw [le_div_iff₀ hp]; linarith
  refine ⟨b, b', h1, h2, fun i => ⟨(h3 i).left_nonneg (by linarith), (h3 i).1, ?_⟩⟩
  have := (h3 i).abs_le h1k
  have e : 1 / (1 - k) - 1 = k / (1 - k) := by field_simp; ring
  rwa [e] at this

/-! ## C177: rounding errors do not pile up over the iterations -/

/-- One exact pass of the within-group iteration brings the error down by `c` (the step of C74). -/
theorem exact_pass_error (p : Problem K) (xsTotal : ℕ → ℕ → K) (xs : ℕ → ℕ → ℕ → K)
    (external boundary : Arr3 K) (c M : K) (hc : 0 ≤ c) (hM : 0 ≤ M)
    (hcon : Contractive p xsTotal xs c) (phi : ℕ → ℕ → K) (psi : ℕ → ℕ → ℕ → K)
    (hsol : SolvesMultigroup p xsTotal xs external boundary phi psi) (f old : ℕ → ℕ → K) (a b : ℕ → K)
    (k : ℕ) (hk : k < p.groups)
    (hf : ∀ i < p.cells, ∀ g < k, |f i g - phi i g| ≤ M)
    (hold : ∀ i < p.cells, ∀ g < p.groups, |old i g - phi i g| ≤ M)
    (ha : ∀ i < p.cells, |a i - phi i k| ≤ M)
    (hb : isotropicSweep p.cells p.angles (fun m => xsTotal m k) (fun m => xs m k k)
      (offScatter p.groups f old p.mm xs k) (external.group (bidx external.groups k))
      (boundary.group (bidx boundary.groups k)) p.mm p.dx p.angleX p.angleW p.bcL p.bcR false a
      = .ok b) : ∀ i < p.cells, |b i - phi i k| ≤ c * M := by
  obtain ⟨b', psi', k1, k2, k3, k4⟩ := isotropicSweep_spec (N := p.cells) (A := p.angles)
    (fun m => xsTotal m k) (fun m => xs m k k) (offScatter p.groups f old p.mm xs k)
    (external.group (bidx external.groups k)) (boundary.group (bidx boundary.groups k)) p.mm p.dx
    p.angleX p.angleW p.bcL p.bcR false a (hcon.ok k hk).nonzero (hcon.ok k hk).phys
  rw [hb] at k1
  have hbb : b = b' := Except.ok.inj k1
  subst hbb
  have hd := swept_abs_diff_le (hcon.ok k hk).nonzero (hcon.ok k hk).phys (hcon.fine k hk)
    (mul_nonneg hc hM) k2 (hsol.balance k hk) k3 (hsol.inflow k hk) (fun n hn i hi => by
      simp only [Arr3.group]
      rw [offScatter_eq _ _ _ _ _ hk, ← add_sum_erase (range p.groups) _ (mem_range.mpr hk)]
      have e : xs (p.mm i) k k * a i + external.val i (bidx external.angles n)
            (bidx external.groups k)
          + ∑ og ∈ (range p.groups).erase k, xs (p.mm i) k og * (if og < k then f i og else old i og)
          - (xs (p.mm i) k k * phi i k + ∑ og ∈ (range p.groups).erase k,
              xs (p.mm i) k og * phi i og
            + external.val i (bidx external.angles n) (bidx external.groups k))
          = ∑ og ∈ range p.groups, xs (p.mm i) k og *
              ((if og = k then a i else if og < k then f i og else old i og) - phi i og) := by
        rw [← add_sum_erase (range p.groups) _ (mem_range.mpr hk)]
        simp only [if_true]
        have e2 : ∑ og ∈ (range p.groups).erase k, xs (p.mm i) k og *
            ((if og = k then a i else if og < k then f i og else old i og) - phi i og)
            = ∑ og ∈ (range p.groups).erase k,
                xs (p.mm i) k og * (if og < k then f i og else old i og)
              - ∑ og ∈ (range p.groups).erase k, xs (p.mm i) k og * phi i og := by
          rw [← sum_sub_distrib]
          refine sum_congr rfl fun og hog => ?_
          rw [if_neg (mem_erase.mp hog).1]; ring
        rw [e2]; ring
      rw [e]
      refine (abs_sum_le_sum_abs _ _).trans ?_
      calc ∑ og ∈ range p.groups, |xs (p.mm i) k og *
              ((if og = k then a i else if og < k then f i og else old i og) - phi i og)|
          ≤ ∑ og ∈ range p.groups, xs (p.mm i) k og * M := by
            refine sum_le_sum fun og hog => ?_
            have hog := mem_range.mp hog
            rw [abs_mul, abs_of_nonneg (hcon.nonneg i hi k hk og hog)]
            refine mul_le_mul_of_nonneg_left ?_ (hcon.nonneg i hi k hk og hog)
            by_cases h1 : og = k
            · subst h1; simp only [if_true]; exact ha i hi
            · rw [if_neg h1]
              by_cases h2 : og < k
              · rw [if_pos h2]; exact hf i hi og h2
              · rw [if_neg h2]; exact hold i hi og hog
        _ = (∑ og ∈ range p.groups, xs (p.mm i) k og) * M := by rw [sum_mul]
        _ ≤ (c * xsTotal (p.mm i) k) * M := mul_le_mul_of_nonneg_right (hcon.rows i hi k hk) hM
        _ = xsTotal (p.mm i) k * (c * M) := by ring)
  intro i hi
  rw [k4 i, hsol.scalar k hk i hi]
  simp only [Bool.false_eq_true, if_false, if_pos hi]
  exact scalarCenter_abs_diff_le hcon.weights hcon.norm (fun n hn => hd n hn i hi.le)
    (fun n hn => hd n hn (i + 1) hi)

/-- One rounded outer sweep: an error `E` against the exact solution that is at least the floor
`k M / (1 - c - k)` becomes at most `(c E + k M) / (1 - k)`, where `k` is the cost of one pass times the
unit roundoff and `M` bounds the exact solution. -/
theorem rounded_outer_error {rnd : K → K} {u th : K} {p : Problem K} {xsTotal : ℕ → ℕ → K}
    {xs : ℕ → ℕ → ℕ → K} {external boundary : Arr3 K}
    (h : RoundedProblem rnd u th p xsTotal xs external boundary) {c k M E : K} (hc : 0 ≤ c)
    (hk : k = sweepCost th p.groups p.cells p.angles * u) (hM : 0 ≤ M)
    (hE : k * M ≤ (1 - c - k) * E) (hE0 : 0 ≤ E)
    (hcon : Contractive p xsTotal xs c) (phi : ℕ → ℕ → K) (psi : ℕ → ℕ → ℕ → K)
    (hsol : SolvesMultigroup p xsTotal xs external boundary phi psi)
    (hphi : ∀ i < p.cells, ∀ g < p.groups, phi i g ≤ M) (old : ℕ → ℕ → K)
    (hold : ∀ i < p.cells, ∀ g < p.groups, 0 ≤ old i g ∧ |old i g - phi i g| ≤ E) :
    ∃ new, Rounded.oneSweepIso rnd p xsTotal xs external boundary old = .ok new ∧
      ∀ i < p.cells, ∀ g < p.groups, 0 ≤ new i g ∧ |new i g - phi i g| ≤ (c * E + k * M) / (1 - k) := by
  have hk0 : 0 ≤ k := by rw [hk]; exact mul_nonneg (sweepCost_nonneg h.fraction1 _ _ _) h.unit
  have hk1 : k < 1 := by rw [hk]; exact h.cost
  have hp : 0 < 1 - k := by linarith
  have hEE : (c * E + k * M) / (1 - k) ≤ E := by rw [div_le_iff₀ hp]; linarith
  obtain ⟨new, h1, h2⟩ := loopE_inv (fun n (f : ℕ → ℕ → K) => ∀ i < p.cells, ∀ g < p.groups,
      0 ≤ f i g ∧ (g < n → |f i g - phi i g| ≤ (c * E + k * M) / (1 - k)))
    p.groups (Rounded.groupStepIso rnd p xsTotal xs external boundary old) (fun _ _ => 0)
    (fun i _ g _ => ⟨le_refl _, fun hg => absurd hg (Nat.not_lt_zero _)⟩) (fun n hn f hf => by
      have pass : ∀ a : ℕ → K, (∀ i < p.cells, 0 ≤ a i ∧ |a i - phi i n| ≤ E) →
          ∃ b, Rounded.isotropicSweep rnd p.cells p.angles (fun m => xsTotal m n) (fun m => xs m n n)
            (Rounded.offScatter rnd p.groups f old p.mm xs n) (external.group (bidx external.groups n))
            (boundary.group (bidx boundary.groups n)) p.mm p.dx p.angleX p.angleW p.bcL p.bcR a
            = .ok b ∧ ∀ i < p.cells, 0 ≤ b i ∧ |b i - phi i n| ≤ (c * E + k * M) / (1 - k) := by
        intro a ha
        obtain ⟨b, b', e1, e2, e3⟩ := C176_one_pass h hn f old a (fun i hi g hg => (hf i hi g hg).1)
          (fun i hi g hg => (hold i hi g hg).1) (fun i hi => (ha i hi).1)
        have hx := exact_pass_error p xsTotal xs external boundary c E hc hE0 hcon phi psi hsol f old a b n
          hn (fun i hi g hg => ((hf i hi g (by omega)).2 hg).trans hEE)
          (fun i hi g hg => (hold i hi g hg).2) (fun i hi => (ha i hi).2) e1
        refine ⟨b', e2, fun i hi => ⟨(e3 i).2.1, ?_⟩⟩
        have k1 := (e3 i).2.2
        rw [← hk] at k1
        have k2 := hx i hi
        have k3 : b i ≤ M + c * E := by
          have := (abs_le.mp k2).2
          linarith [hphi i hi n hn]
        have k4 : |b' i - b i| ≤ k / (1 - k) * (M + c * E) :=
          k1.trans (mul_le_mul_of_nonneg_left k3 (div_nonneg hk0 hp.le))
        calc |b' i - phi i n| = |(b' i - b i) + (b i - phi i n)| := by congr 1; ring
          _ ≤ |b' i - b i| + |b i - phi i n| := abs_add_le _ _
          _ ≤ k / (1 - k) * (M + c * E) + c * E := add_le_add k4 k2
          _ = (c * E + k * M) / (1 - k) := by field_simp; ring
      obtain ⟨x, j, _, _, hstep, hP, he, _⟩ := iterateE_spec (Rounded.isotropicSweep rnd p.cells p.angles
        (fun m => xsTotal m n) (fun m => xs m n n)
        (Rounded.offScatter rnd p.groups f old p.mm xs n) (external.group (bidx external.groups n))
        (boundary.group (bidx boundary.groups n)) p.mm p.dx p.angleX p.angleW p.bcL p.bcR) p.convIn
        (fun a => ∀ i < p.cells, 0 ≤ a i ∧ |a i - phi i n| ≤ E) (fun a ha => by
          obtain ⟨b, hb1, hb2⟩ := pass a ha
          exact ⟨b, hb1, fun i hi => ⟨(hb2 i hi).1, (hb2 i hi).2.trans hEE⟩⟩) 99 (fun i => old i n)
        (fun i hi => hold i hi n hn)
      obtain ⟨b, hb1, hb2⟩ := pass (x j) (hP j (by omega))
      have hbx : b = x (j + 1) := by
        have := hstep j (le_refl _)
        rw [hb1] at this; exact Except.ok.inj this
      refine ⟨putCol f n (x (j + 1)), ?_, fun i hi g hg => ?_⟩
      · unfold Rounded.groupStepIso Rounded.isotropicSn
        rw [he]; rfl
      · unfold putCol
        by_cases hgn : g = n
        · subst hgn; rw [if_pos rfl, ← hbx]; exact ⟨(hb2 i hi).1, fun _ => (hb2 i hi).2⟩
        · rw [if_neg hgn]; exact ⟨(hf i hi g hg).1, fun hlt => (hf i hi g hg).2 (by omega)⟩)
  exact ⟨new, h1, fun i hi g hg => ⟨(h2 i hi g hg).1, (h2 i hi g hg).2 hg⟩⟩

/-- C177: in rounded arithmetic the source iteration converges to within a *fixed* distance
`k M / (1 - c - k)` of the exact solution, `k` being the unit roundoff times the cost of one pass: after
`s` outer sweeps (each with any number of within-group passes) the error is at most that distance plus
`(c / (1 - k))^s` times what the initial error exceeded it by.  The rounding errors of the up to ten
thousand passes do not add up. -/
theorem C177_rounding_does_not_accumulate {rnd : K → K} {u th : K} {p : Problem K} {xsTotal : ℕ → ℕ → K}
    {xs : ℕ → ℕ → ℕ → K} {external boundary : Arr3 K}
    (h : RoundedProblem rnd u th p xsTotal xs external boundary) {c k M D : K} (hc : 0 ≤ c)
    (hk : k = sweepCost th p.groups p.cells p.angles * u) (hM : 0 ≤ M) (hD : 0 ≤ D) (hck : c + k < 1)
    (hcon : Contractive p xsTotal xs c) (phi : ℕ → ℕ → K) (psi : ℕ → ℕ → ℕ → K)
    (hsol : SolvesMultigroup p xsTotal xs external boundary phi psi)
    (hphi : ∀ i < p.cells, ∀ g < p.groups, phi i g ≤ M) (guess : ℕ → ℕ → K)
    (hguess : ∀ i < p.cells, ∀ g < p.groups,
      0 ≤ guess i g ∧ |guess i g - phi i g| ≤ k * M / (1 - c - k) + D) :
    ∃ flux sweeps, 1 ≤ sweeps ∧ sweeps ≤ 100 ∧
      Rounded.sourceIterationIso rnd p xsTotal xs external boundary guess = .ok flux ∧
      (∀ i < p.cells, ∀ g < p.groups,
        |flux i g - phi i g| ≤ k * M / (1 - c - k) + (c / (1 - k)) ^ sweeps * D) ∧
      (sweeps < 100 → ∃ prev, p.convOut flux prev = true) := by
  have hk0 : 0 ≤ k := by rw [hk]; exact mul_nonneg (sweepCost_nonneg h.fraction1 _ _ _) h.unit
  have hq : 0 < 1 - c - k := by linarith
  have hp : 0 < 1 - k := by linarith
  obtain ⟨F, hF⟩ : ∃ F, F = k * M / (1 - c - k) := ⟨_, rfl⟩
  have hF0 : 0 ≤ F := by rw [hF]; positivity
  have hFe : (1 - c - k) * F = k * M := by rw [hF]; field_simp
  obtain ⟨q, hqd⟩ : ∃ q, q = c / (1 - k) := ⟨_, rfl⟩
  have hq0 : 0 ≤ q := by rw [hqd]; positivity
  have hqe : q * (1 - k) = c := by rw [hqd]; field_simp
  rw [← hF] at hguess ⊢
  rw [← hqd]
  have sweep : ∀ (d : K) (old : ℕ → ℕ → K), 0 ≤ d →
      (∀ i < p.cells, ∀ g < p.groups, 0 ≤ old i g ∧ |old i g - phi i g| ≤ F + d) →
      ∃ new, Rounded.oneSweepIso rnd p xsTotal xs external boundary old = .ok new ∧
        ∀ i < p.cells, ∀ g < p.groups, 0 ≤ new i g ∧ |new i g - phi i g| ≤ F + q * d := by
    intro d old hd hold
    obtain ⟨new, h1, h2⟩ := rounded_outer_error h hc hk hM (E := F + d)
      (by nlinarith) (by linarith) hcon phi psi hsol hphi old hold
    refine ⟨new, h1, fun i hi g hg => ⟨(h2 i hi g hg).1, (h2 i hi g hg).2.trans ?_⟩⟩
    rw [div_le_iff₀ hp]
    have e : q * d * (1 - k) = c * d := by rw [← hqe]; ring
    nlinarith
  have hq1 : q ≤ 1 := by rw [hqd, div_le_one hp]; linarith
  obtain ⟨x, j, hj, hx0, hstep, hP, he, hconv, _⟩ := iterateE_spec
    (Rounded.oneSweepIso rnd p xsTotal xs external boundary) p.convOut
    (fun f => ∀ i < p.cells, ∀ g < p.groups, 0 ≤ f i g ∧ |f i g - phi i g| ≤ F + D) (fun old hold => by
      obtain ⟨new, h1, h2⟩ := sweep D old hD hold
      exact ⟨new, h1, fun i hi g hg => ⟨(h2 i hi g hg).1, (h2 i hi g hg).2.trans (by nlinarith)⟩⟩)
    99 guess hguess
  have key : ∀ n ≤ j + 1, ∀ i < p.cells, ∀ g < p.groups, 0 ≤ x n i g ∧
      |x n i g - phi i g| ≤ F + q ^ n * D := by
    intro n
    induction n with
    | zero => intro _ i hi g hg; rw [hx0, pow_zero, one_mul]; exact hguess i hi g hg
    | succ n ih =>
      intro hn
      obtain ⟨new, h1, h2⟩ := sweep (q ^ n * D) (x n) (mul_nonneg (pow_nonneg hq0 n) hD) (ih (by omega))
      have : new = x (n + 1) := by
        have := hstep n (by omega)
        rw [h1] at this; exact Except.ok.inj this
      subst this
      intro i hi g hg
      rw [pow_succ, mul_comm (q ^ n) q, mul_assoc]
      exact h2 i hi g hg
  exact ⟨x (j + 1), j + 1, by omega, by omega, he, fun i hi g hg => (key (j + 1) (le_refl _) i hi g hg).2,
    fun hlt => ⟨_, hconv (by omega)⟩⟩

/-- C177, when the stopping test fired: if the outer test is only true of fluxes that agree within the
relative tolerance `t`, then a call that stops before the limit of 100 outer sweeps is, relative to the
largest flux, within `(k + c t) / (1 - k - c (1 + t))` of the exact solution - rounding and stopping errors
together, whatever the initial guess. -/
theorem C177_stopped_accuracy {rnd : K → K} {u th : K} {p : Problem K} {xsTotal : ℕ → ℕ → K}
    {xs : ℕ → ℕ → ℕ → K} {external boundary : Arr3 K}
    (h : RoundedProblem rnd u th p xsTotal xs external boundary) {c k t M : K} (hc : 0 ≤ c)
    (hk : k = sweepCost th p.groups p.cells p.angles * u) (hM : 0 ≤ M) (ht : 0 ≤ t)
    (hck : c * (1 + t) + k < 1)
    (hcon : Contractive p xsTotal xs c)
    (htest : ∀ new old, p.convOut new old = true → ∀ i < p.cells, ∀ g < p.groups,
      |new i g - old i g| ≤ t * |new i g|) (phi : ℕ → ℕ → K) (psi : ℕ → ℕ → ℕ → K)
    (hsol : SolvesMultigroup p xsTotal xs external boundary phi psi)
    (hphi : ∀ i < p.cells, ∀ g < p.groups, |phi i g| ≤ M) (guess : ℕ → ℕ → K)
    (hguess : ∀ i < p.cells, ∀ g < p.groups, 0 ≤ guess i g) :
    ∃ x sweeps, Run (Rounded.oneSweepIso rnd p xsTotal xs external boundary) p.convOut 100 guess x sweeps ∧
      Rounded.sourceIterationIso rnd p xsTotal xs external boundary guess = .ok (x sweeps) ∧
      (sweeps < 100 → ∀ i < p.cells, ∀ g < p.groups,
        |x sweeps i g - phi i g| ≤ (k + c * t) / (1 - k - c * (1 + t)) * M) := by
  have hk0 : 0 ≤ k := by rw [hk]; exact mul_nonneg (sweepCost_nonneg h.fraction1 _ _ _) h.unit
  have hct : 0 ≤ c * t := mul_nonneg hc ht
  have hq : 0 < 1 - c - k := by nlinarith
  have hp : 0 < 1 - k := by linarith
  have hz : 0 < 1 - k - c * (1 + t) := by linarith
  obtain ⟨F, hF⟩ : ∃ F, F = k * M / (1 - c - k) := ⟨_, rfl⟩
  have hF0 : 0 ≤ F := by rw [hF]; positivity
  have hFe : (1 - c - k) * F = k * M := by rw [hF]; field_simp
  obtain ⟨x, j, hj, hx0, hstep, hP, he, hconv, hno⟩ := iterateE_spec
    (Rounded.oneSweepIso rnd p xsTotal xs external boundary) p.convOut
    (fun f => ∀ i < p.cells, ∀ g < p.groups, 0 ≤ f i g) (fun old hold => by
      obtain ⟨B, hB⟩ : ∃ B : K, ∀ i < p.cells, ∀ g < p.groups, |old i g - phi i g| ≤ B :=
        ⟨∑ i ∈ range p.cells, ∑ g ∈ range p.groups, |old i g - phi i g|, fun i hi g hg =>
          (single_le_sum (f := fun g => |old i g - phi i g|) (fun _ _ => abs_nonneg _)
            (mem_range.mpr hg)).trans
          (single_le_sum (f := fun i => ∑ g ∈ range p.groups, |old i g - phi i g|)
            (fun _ _ => sum_nonneg fun _ _ => abs_nonneg _) (mem_range.mpr hi))⟩
      obtain ⟨new, h1, h2⟩ := rounded_outer_error h hc hk hM (E := max F B)
        (by rw [← hFe]; exact mul_le_mul_of_nonneg_left (le_max_left _ _) hq.le)
        (hF0.trans (le_max_left _ _)) hcon phi psi hsol
        (fun i hi g hg => (le_abs_self _).trans (hphi i hi g hg)) old
        (fun i hi g hg => ⟨hold i hi g hg, (hB i hi g hg).trans (le_max_right _ _)⟩)
      exact ⟨new, h1, fun i hi g hg => (h2 i hi g hg).1⟩) 99 guess hguess
  refine ⟨x, j + 1, ⟨hx0, by omega, by omega, fun i hi => hstep i (by omega), fun h => hconv (by omega),
    fun i h1 h2 => ?_⟩, he, fun hlt i hi g hg => ?_⟩
  · obtain ⟨i, rfl⟩ : ∃ m, i = m + 1 := ⟨i - 1, by omega⟩
    exact hno i (by omega)
  have htst := htest _ _ (hconv (by omega))
  -- the largest error of the returned flux
  obtain ⟨m, hm, hmax⟩ := (range p.cells ×ˢ range p.groups).exists_max_image
    (fun a => |x (j + 1) a.1 a.2 - phi a.1 a.2|) ⟨(i, g), by simp [hi, hg]⟩
  obtain ⟨E, hE⟩ : ∃ E, E = |x (j + 1) m.1 m.2 - phi m.1 m.2| := ⟨_, rfl⟩
  have hE0 : 0 ≤ E := by rw [hE]; exact abs_nonneg _
  have hb : ∀ i < p.cells, ∀ g < p.groups, |x (j + 1) i g - phi i g| ≤ E := fun i hi g hg => by
    rw [hE]; exact hmax (i, g) (by simp [hi, hg])
  have hm' := mem_product.mp hm
  have hm1 := mem_range.mp hm'.1
  have hm2 := mem_range.mp hm'.2
  -- the error of the iterate before
  have hprev : ∀ i < p.cells, ∀ g < p.groups, |x j i g - phi i g| ≤ E + t * (M + E) := by
    intro i hi g hg
    have a1 := htst i hi g hg
    have a2 : |x (j + 1) i g| ≤ M + E := by
      calc |x (j + 1) i g| = |phi i g + (x (j + 1) i g - phi i g)| := by congr 1; ring
        _ ≤ |phi i g| + |x (j + 1) i g - phi i g| := abs_add_le _ _
        _ ≤ M + E := add_le_add (hphi i hi g hg) (hb i hi g hg)
    calc |x j i g - phi i g| = |(x (j + 1) i g - phi i g) - (x (j + 1) i g - x j i g)| := by congr 1; ring
      _ ≤ |x (j + 1) i g - phi i g| + |x (j + 1) i g - x j i g| := abs_sub _ _
      _ ≤ E + t * (M + E) := add_le_add (hb i hi g hg)
        (a1.trans (mul_le_mul_of_nonneg_left a2 ht))
  refine (hb i hi g hg).trans ?_
  rw [div_mul_eq_mul_div, le_div_iff₀ hz]
  obtain ⟨new, h1, h2⟩ := rounded_outer_error h hc hk hM (E := max F (E + t * (M + E)))
    (by rw [← hFe]; exact mul_le_mul_of_nonneg_left (le_max_left _ _) hq.le)
    (hF0.trans (le_max_left _ _)) hcon phi psi hsol
    (fun i hi g hg => (le_abs_self _).trans (hphi i hi g hg)) (x j)
    (fun i hi g hg => ⟨hP j (by omega) i hi g hg, (hprev i hi g hg).trans (le_max_right _ _)⟩)
  have hnew : new = x (j + 1) := by
    have := hstep j (le_refl _)
    rw [h1] at this; exact Except.ok.inj this
  have key := (h2 m.1 hm1 m.2 hm2).2
  rw [hnew, ← hE, le_div_iff₀ hp] at key
  rcases le_total F (E + t * (M + E)) with hle | hle
  · rw [max_eq_right hle] at key
    nlinarith
  · rw [max_eq_left hle] at key
    have : E * (1 - k) ≤ F * (1 - k) := by linarith
    have hEF : E ≤ F := le_of_mul_le_mul_right this hp
    have q1 : (1 - k - c * (1 + t)) * E ≤ (1 - k - c * (1 + t)) * F :=
      mul_le_mul_of_nonneg_left hEF hz.le
    nlinarith [mul_nonneg hct hF0, mul_nonneg hct hM]

/-- C177 with the test the code uses (`multi_group.py:345-349`, `change_gg`): a call that stops before the
limit is within `(k + c t) / (1 - k - c (1 + t))`, `t = cells * change_gg`, of the exact solution relative
to the largest flux.  Simplification: here the test itself is evaluated exactly. -/
theorem C177_stopped_accuracy_default {rnd : K → K} {u th : K} {p : Problem K} {xsTotal : ℕ → ℕ → K}
    {xs : ℕ → ℕ → ℕ → K} {external boundary : Arr3 K}
    (h : RoundedProblem rnd u th p xsTotal xs external boundary) {c k t tol M : K} (hc : 0 ≤ c)
    (hk : k = sweepCost th p.groups p.cells p.angles * u) (hM : 0 ≤ M) (htol : 0 ≤ tol)
    (hconv : p.convOut = fluxConverged2 p.cells p.groups tol) (ht : t = p.cells * tol)
    (hck : c * (1 + t) + k < 1) (hcon : Contractive p xsTotal xs c) (phi : ℕ → ℕ → K)
    (psi : ℕ → ℕ → ℕ → K)
    (hsol : SolvesMultigroup p xsTotal xs external boundary phi psi)
    (hphi : ∀ i < p.cells, ∀ g < p.groups, |phi i g| ≤ M) (guess : ℕ → ℕ → K)
    (hguess : ∀ i < p.cells, ∀ g < p.groups, 0 ≤ guess i g) :
    ∃ x sweeps, Run (Rounded.oneSweepIso rnd p xsTotal xs external boundary) p.convOut 100 guess x sweeps ∧
      Rounded.sourceIterationIso rnd p xsTotal xs external boundary guess = .ok (x sweeps) ∧
      (sweeps < 100 → ∀ i < p.cells, ∀ g < p.groups,
        |x sweeps i g - phi i g| ≤ (k + c * t) / (1 - k - c * (1 + t)) * M) := by
  have ht0 : 0 ≤ t := by rw [ht]; positivity
  refine C177_stopped_accuracy h hc hk hM ht0 hck hcon (fun new old hn i hi g hg => ?_) phi psi hsol hphi
    guess hguess
  rw [hconv] at hn
  have := converged2_rel htol hn i hi g hg
  rw [← ht, ← mul_pow] at this
  have h2 := sq_le_sq.mp this
  rwa [abs_mul, abs_of_nonneg ht0, abs_sub_comm] at h2

/-! ## Rounding to nearest with `b` bits is such a rounding -/

/-- Rounding of a positive number to the nearest multiple of `2^(e - b + 1)`, where `2^e ≤ x < 2^(e+1)`:
a binary floating-point format with `b` significant bits and unbounded exponents. -/
def nearestPos (b : ℕ) (x : ℚ) : ℚ :=
  (round (x / (2 : ℚ) ^ (Int.log 2 x - b + 1)) : ℤ) * (2 : ℚ) ^ (Int.log 2 x - b + 1)

/-- Rounding to nearest, ties away from zero. -/
def toNearest (b : ℕ) (x : ℚ) : ℚ := if 0 ≤ x then nearestPos b x else -nearestPos b (-x)

theorem round_mono {x y : ℚ} (h : x ≤ y) : round x ≤ round y := by
  rw [round_eq, round_eq]
  exact Int.floor_mono (by linarith)

theorem nearestPos_zero (b : ℕ) : nearestPos b 0 = 0 := by simp [nearestPos]

theorem nearestPos_error {b : ℕ} {x : ℚ} (hx : 0 < x) : |nearestPos b x - x| ≤ 1 / 2 ^ b * x := by
  obtain ⟨e, he⟩ : ∃ e, e = Int.log 2 x := ⟨_, rfl⟩
  have h1 : (2 : ℚ) ^ e ≤ x := by
    have := Int.zpow_log_le_self (b := 2) (r := x) (by norm_num) hx
    rw [he]; exact_mod_cast this
  obtain ⟨U, hU⟩ : ∃ U : ℚ, U = 2 ^ (e - b + 1) := ⟨_, rfl⟩
  have hU0 : 0 < U := by rw [hU]; positivity
  have hUe : U / 2 = 1 / 2 ^ b * 2 ^ e := by
    rw [hU, show e - (b : ℤ) + 1 = e + (-(b : ℤ) + 1) by ring, zpow_add₀ (by norm_num),
      zpow_add₀ (by norm_num), zpow_neg, zpow_natCast, zpow_one]
    field_simp
  have h2 : nearestPos b x = (round (x / U) : ℤ) * U := by rw [hU, he]; rfl
  rw [h2]
  have h3 := abs_sub_round (x / U)
  have e1 : (round (x / U) : ℚ) * U - x = -((x / U - round (x / U)) * U) := by field_simp; ring
  rw [e1, abs_neg, abs_mul, abs_of_pos hU0]
  calc |x / U - round (x / U)| * U ≤ 1 / 2 * U := mul_le_mul_of_nonneg_right h3 hU0.le
    _ = U / 2 := by ring
    _ = 1 / 2 ^ b * 2 ^ e := hUe
    _ ≤ 1 / 2 ^ b * x := mul_le_mul_of_nonneg_left h1 (by positivity)

theorem nearestPos_bounds {b : ℕ} (hb : 0 < b) {x : ℚ} (hx : 0 < x) :
    (2 : ℚ) ^ (Int.log 2 x) ≤ nearestPos b x ∧ nearestPos b x ≤ 2 ^ (Int.log 2 x + 1) := by
  obtain ⟨e, he⟩ : ∃ e, e = Int.log 2 x := ⟨_, rfl⟩
  have h1 : (2 : ℚ) ^ e ≤ x := by
    have := Int.zpow_log_le_self (b := 2) (r := x) (by norm_num) hx
    rw [he]; exact_mod_cast this
  have h2 : x ≤ (2 : ℚ) ^ (e + 1) := by
    have := (Int.lt_zpow_succ_log_self (b := 2) (by norm_num) x).le
    rw [he]; exact_mod_cast this
  obtain ⟨U, hU⟩ : ∃ U : ℚ, U = 2 ^ (e - b + 1) := ⟨_, rfl⟩
  have hU0 : 0 < U := by rw [hU]; positivity
  obtain ⟨n, rfl⟩ : ∃ n, b = n + 1 := ⟨b - 1, by omega⟩
  have lo : (2 : ℚ) ^ e = ((2 ^ n : ℤ) : ℚ) * U := by
    rw [hU]; push_cast
    rw [← zpow_natCast, ← zpow_add₀ (by norm_num)]
    congr 1; ring
  have hi : (2 : ℚ) ^ (e + 1) = ((2 ^ (n + 1) : ℤ) : ℚ) * U := by
    rw [hU]; push_cast
    rw [← zpow_natCast, ← zpow_add₀ (by norm_num)]
    congr 1; push_cast; ring
  have hn : nearestPos (n + 1) x = (round (x / U) : ℤ) * U := by rw [hU, he]; rfl
  rw [← he, hn]
  constructor
  · rw [lo]
    refine mul_le_mul_of_nonneg_right ?_ hU0.le
    have : ((2 ^ n : ℤ) : ℚ) ≤ x / U := by rw [le_div_iff₀ hU0, ← lo]; exact h1
    have := round_mono this
    rw [round_intCast] at this
    exact_mod_cast this
  · rw [hi]
    refine mul_le_mul_of_nonneg_right ?_ hU0.le
    have : x / U ≤ ((2 ^ (n + 1) : ℤ) : ℚ) := by rw [div_le_iff₀ hU0, ← hi]; exact h2
    have := round_mono this
    rw [round_intCast] at this
    exact_mod_cast this

theorem nearestPos_nonneg {b : ℕ} (hb : 0 < b) {x : ℚ} (hx : 0 ≤ x) : 0 ≤ nearestPos b x := by
  rcases hx.eq_or_lt with rfl | h
  · rw [nearestPos_zero]
  · exact le_trans (by positivity) (nearestPos_bounds hb h).1

theorem nearestPos_mono {b : ℕ} (hb : 0 < b) {x y : ℚ} (hx : 0 ≤ x) (h : x ≤ y) :
    nearestPos b x ≤ nearestPos b y := by
  rcases hx.eq_or_lt with rfl | hx0
  · rw [nearestPos_zero]; exact nearestPos_nonneg hb h
  have hy0 : 0 < y := by linarith
  have hlog : Int.log 2 x ≤ Int.log 2 y := Int.log_mono_right hx0 h
  rcases hlog.eq_or_lt with he | hlt
  · unfold nearestPos
    rw [← he]
    have hU : (0 : ℚ) < 2 ^ (Int.log 2 x - b + 1) := by positivity
    refine mul_le_mul_of_nonneg_right ?_ hU.le
    exact_mod_cast round_mono (div_le_div_of_nonneg_right h hU.le)
  · calc nearestPos b x ≤ 2 ^ (Int.log 2 x + 1) := (nearestPos_bounds hb hx0).2
      _ ≤ 2 ^ (Int.log 2 y) := zpow_le_zpow_right₀ (by norm_num) (by omega)
      _ ≤ nearestPos b y := (nearestPos_bounds hb hy0).1

theorem toNearest_rounding {b : ℕ} (hb : 0 < b) : IsRounding (toNearest b) where
  zero := by simp [toNearest, nearestPos_zero]
  mono := by
    intro x y h
    unfold toNearest
    by_cases hx : 0 ≤ x
    · rw [if_pos hx, if_pos (hx.trans h)]
      exact nearestPos_mono hb hx h
    · rw [if_neg hx]
      have hx' : 0 ≤ -x := by linarith [not_le.mp hx]
      by_cases hy : 0 ≤ y
      · rw [if_pos hy]
        linarith [nearestPos_nonneg hb hx', nearestPos_nonneg hb hy]
      · rw [if_neg hy]
        have hy' : 0 ≤ -y := by linarith [not_le.mp hy]
        exact neg_le_neg (nearestPos_mono hb hy' (by linarith))

theorem toNearest_error (b : ℕ) : RelativeError (1 / 2 ^ b) (toNearest b) := by
  intro x
  unfold toNearest
  rcases lt_trichotomy x 0 with h | h | h
  · rw [if_neg (not_le.mpr h), abs_of_neg h]
    have := nearestPos_error (b := b) (x := -x) (by linarith)
    rwa [show -nearestPos b (-x) - x = -(nearestPos b (-x) - -x) by ring, abs_neg]
  · subst h; simp [nearestPos_zero]
  · rw [if_pos h.le, abs_of_pos h]
    exact nearestPos_error h

/-! ## Examples -/

-- rounding to three bits: 5/16 is representable, 1/3 and 0.3 go to 5/16, 11 goes to 12
example : toNearest 3 (1 / 3) = 5 / 16 := by
  have h : Int.log 2 (1 / 3 : ℚ) = -2 := by
    have := Int.log_of_right_le_one (R := ℚ) 2 (r := 1 / 3) (by norm_num)
    rw [this]
    norm_num
    decide
  unfold toNearest nearestPos
  rw [if_pos (by norm_num), h]
  norm_num [round_eq]

theorem exFineBy (g : ℕ) (hg : g < 2) (n : ℕ) (hn : n < 4) :
    FineBy (1 / 2) 3 (exFine.angleX n) exFine.dx (fun i => exTotal (exFine.mm i) g) := by
  intro i _
  have h1 := exFine_mu n hn
  have h2 : exTotal (exFine.mm i) g ≤ 3 := by
    have hm : exFine.mm i ≤ 1 := by
      show (if i = 1 then 1 else 0) ≤ 1
      split <;> omega
    have hm' : ((exFine.mm i : ℕ) : ℚ) ≤ 1 := by exact_mod_cast hm
    have hg' : ((g : ℕ) : ℚ) ≤ 1 := by exact_mod_cast (by omega : g ≤ 1)
    unfold exTotal
    linarith
  show exTotal (exFine.mm i) g * (1 / 16) ≤ _
  linarith

theorem exRounded : RoundedProblem (toNearest 53) (1 / 2 ^ 53) (1 / 2) exFine exTotal
    (fun m g _ => exTotal m g / 4) ⟨1, 1, fun i _ _ => (i : ℚ)⟩ ⟨1, 1, fun _ _ _ => 1⟩ where
  unit := by positivity
  error := toNearest_error 53
  cells := by show 0 < 3; omega
  fraction0 := by norm_num
  fraction1 := by norm_num
  ok := fun g _ => exFineOk g
  fine := fun g hg n hn => exFineBy g hg n hn
  data := fun g _ => ⟨fun n _ => by show (0 : ℚ) ≤ 1 / 4; norm_num,
    fun n _ i _ => by simp [Arr3.group], fun n _ _ => by simp [Arr3.group],
    fun n _ _ => by simp [Arr3.group]⟩
  xs := fun i hi g hg g' hg' => exContractive.nonneg i hi g hg g' hg'
  cost := by show sweepCost (1 / 2 : ℚ) 2 3 4 * (1 / 2 ^ 53) < 1; norm_num [sweepCost]

-- C175 for double precision
example := C175_rounded_nonneg (toNearest_rounding (b := 53) (by norm_num)) exFine exTotal
  (fun m g _ => exTotal m g / 4) ⟨1, 1, fun i _ _ => (i : ℚ)⟩ ⟨1, 1, fun _ _ _ => 1⟩ (fun _ _ => 1)
  exRounded.ok (fun g hg n hn => exFineFor g hg n hn) exRounded.data exRounded.xs
  (fun _ _ _ _ => zero_le_one)

-- C176 for double precision, group 1, from the flux `i + 1`
example := C176_one_pass exRounded (g := 1) (by show 1 < 2; omega) (fun _ _ => 1) (fun i _ => (i : ℚ))
  (fun i => (i : ℚ) + 1) (fun _ _ _ _ => zero_le_one) (fun i _ _ _ => Nat.cast_nonneg i)
  (fun i _ => by positivity)

-- C177 for double precision: the cost of one pass is 87 roundings
example : sweepCost (1 / 2 : ℚ) 2 3 4 = 87 := by norm_num [sweepCost]

-- one hundred cells, ten groups, eight directions: the relative error of one pass is below 5e-13
example : sweepCost (1 / 2 : ℚ) 10 100 8 * (1 / 2 ^ 53) < 5 / 10 ^ 13 := by norm_num [sweepCost]

example : ∃ (phi : ℕ → ℕ → ℚ) (psi : ℕ → ℕ → ℕ → ℚ) (M : ℚ),
    SolvesMultigroup exFine exTotal (fun m g _ => exTotal m g / 4)
      ⟨1, 1, fun i _ _ => (i : ℚ)⟩ ⟨1, 1, fun _ _ _ => 1⟩ phi psi ∧
    ∃ flux sweeps, 1 ≤ sweeps ∧ sweeps ≤ 100 ∧
      Rounded.sourceIterationIso (toNearest 53) exFine exTotal (fun m g _ => exTotal m g / 4)
        ⟨1, 1, fun i _ _ => (i : ℚ)⟩ ⟨1, 1, fun _ _ _ => 1⟩ (fun _ _ => 0) = .ok flux ∧
      (∀ i < 3, ∀ g < 2, |flux i g - phi i g| ≤
        (87 / 2 ^ 53) * M / (1 - 1 / 2 - 87 / 2 ^ 53) + ((1 / 2) / (1 - 87 / 2 ^ 53)) ^ sweeps * M) := by
  obtain ⟨phi, psi, hsol⟩ := C74_exists exFine exTotal (fun m g _ => exTotal m g / 4)
    ⟨1, 1, fun i _ _ => (i : ℚ)⟩ ⟨1, 1, fun _ _ _ => 1⟩ (1 / 2) (by norm_num) (by norm_num) exContractive
  obtain ⟨M, hM⟩ : ∃ M : ℚ, M = ∑ i ∈ range 3, ∑ g ∈ range 2, |phi i g| := ⟨_, rfl⟩
  have hM0 : 0 ≤ M := by rw [hM]; exact sum_nonneg fun _ _ => sum_nonneg fun _ _ => abs_nonneg _
  have hb : ∀ i < 3, ∀ g < 2, |phi i g| ≤ M := fun i hi g hg => by
    rw [hM]
    exact (single_le_sum (f := fun g => |phi i g|) (fun _ _ => abs_nonneg _)
        (mem_range.mpr hg)).trans
      (single_le_sum (f := fun i => ∑ g ∈ range 2, |phi i g|)
        (fun _ _ => sum_nonneg fun _ _ => abs_nonneg _) (mem_range.mpr hi))
  have hcost : (87 / 2 ^ 53 : ℚ) = sweepCost (1 / 2) exFine.groups exFine.cells exFine.angles * (1 / 2 ^ 53) := by
    show (87 / 2 ^ 53 : ℚ) = sweepCost (1 / 2) 2 3 4 * (1 / 2 ^ 53)
    norm_num [sweepCost]
  obtain ⟨flux, s, a1, a2, a3, a4, _⟩ := C177_rounding_does_not_accumulate exRounded (c := 1 / 2)
    (k := 87 / 2 ^ 53) (M := M) (D := M) (by norm_num) hcost hM0 hM0 (by norm_num) exContractive phi psi hsol
    (fun i hi g hg => (le_abs_self _).trans (hb i hi g hg)) (fun _ _ => 0)
    (fun i hi g hg => ⟨le_refl _, by
      rw [zero_sub, abs_neg]
      have : 0 ≤ (87 / 2 ^ 53 : ℚ) * M / (1 - 1 / 2 - 87 / 2 ^ 53) :=
        div_nonneg (mul_nonneg (by positivity) hM0) (by norm_num)
      linarith [hb i hi g hg]⟩)
  exact ⟨phi, psi, M, hsol, flux, s, a1, a2, a3, a4⟩

/-- The example with the code's own outer test, `change_gg = 1e-8`. -/
def exTested : Problem ℚ := { exFine with convOut := fluxConverged2 3 2 (1 / 10 ^ 8) }

theorem exTestedContractive : Contractive exTested exTotal (fun m g _ => exTotal m g / 4) (1 / 2) :=
  ⟨fun g hg => ⟨(exContractive.ok g hg).slab, (exContractive.ok g hg).nonzero, (exContractive.ok g hg).phys⟩,
    exContractive.fine, exContractive.weights, exContractive.norm, exContractive.nonneg, exContractive.rows⟩

theorem exTestedRounded : RoundedProblem (toNearest 53) (1 / 2 ^ 53) (1 / 2) exTested exTotal
    (fun m g _ => exTotal m g / 4) ⟨1, 1, fun i _ _ => (i : ℚ)⟩ ⟨1, 1, fun _ _ _ => 1⟩ :=
  ⟨exRounded.unit, exRounded.error, exRounded.cells, exRounded.fraction0, exRounded.fraction1,
    exTestedContractive.ok, exRounded.fine, exRounded.data, exRounded.xs, exRounded.cost⟩

example : ∃ (phi : ℕ → ℕ → ℚ) (M : ℚ) (flux : ℕ → ℕ → ℚ) (sweeps : ℕ),
    Rounded.sourceIterationIso (toNearest 53) exTested exTotal (fun m g _ => exTotal m g / 4)
      ⟨1, 1, fun i _ _ => (i : ℚ)⟩ ⟨1, 1, fun _ _ _ => 1⟩ (fun _ _ => 0) = .ok flux ∧
    (sweeps < 100 → ∀ i < 3, ∀ g < 2, |flux i g - phi i g| ≤ 4 / 10 ^ 8 * M) := by
  obtain ⟨phi, psi, hsol⟩ := C74_exists exTested exTotal (fun m g _ => exTotal m g / 4)
    ⟨1, 1, fun i _ _ => (i : ℚ)⟩ ⟨1, 1, fun _ _ _ => 1⟩ (1 / 2) (by norm_num) (by norm_num)
    exTestedContractive
  obtain ⟨M, hM⟩ : ∃ M : ℚ, M = ∑ i ∈ range 3, ∑ g ∈ range 2, |phi i g| := ⟨_, rfl⟩
  have hM0 : 0 ≤ M := by rw [hM]; exact sum_nonneg fun _ _ => sum_nonneg fun _ _ => abs_nonneg _
  have hb : ∀ i < 3, ∀ g < 2, |phi i g| ≤ M := fun i hi g hg => by
    rw [hM]
    exact (single_le_sum (f := fun g => |phi i g|) (fun _ _ => abs_nonneg _)
        (mem_range.mpr hg)).trans
      (single_le_sum (f := fun i => ∑ g ∈ range 2, |phi i g|)
        (fun _ _ => sum_nonneg fun _ _ => abs_nonneg _) (mem_range.mpr hi))
  have hcost : (87 / 2 ^ 53 : ℚ)
      = sweepCost (1 / 2) exTested.groups exTested.cells exTested.angles * (1 / 2 ^ 53) := by
    show (87 / 2 ^ 53 : ℚ) = sweepCost (1 / 2) 2 3 4 * (1 / 2 ^ 53)
    norm_num [sweepCost]
  obtain ⟨x, s, _, a3, a4⟩ := C177_stopped_accuracy_default exTestedRounded (c := 1 / 2)
    (k := 87 / 2 ^ 53) (t := 3 / 10 ^ 8) (tol := 1 / 10 ^ 8) (M := M) (by norm_num) hcost hM0 (by norm_num)
    rfl (by show (3 / 10 ^ 8 : ℚ) = ((3 : ℕ) : ℚ) * (1 / 10 ^ 8); norm_num) (by norm_num)
    exTestedContractive phi psi hsol hb (fun _ _ => 0) (fun _ _ _ _ => le_refl _)
  exact ⟨phi, M, x s, s, a3, fun h i hi g hg => (a4 h i hi g hg).trans
    (mul_le_mul_of_nonneg_right (by norm_num) hM0)⟩

end Discrete1.Props
