import Verif.Props.Setup
import Verif.Props.Hybrid
import Mathlib.Algebra.Order.Field.Power

/-!
# C48 (neutron speeds), C79 (smooth decay of a boundary), C80 (energy grids)
-/

set_option linter.unusedSectionVars false
set_option linter.unusedSimpArgs false

namespace Discrete1.Props

open Discrete1.Tools Discrete1.Spec Discrete1.Setup Discrete1.Hybrid

/-! ## C48: energy_velocity -/

/-- The group-centre energy. -/
noncomputable def centre (e : ℕ → ℝ) (g : ℕ) : ℝ := (e g + e (g + 1)) / 2

/-- Positive physical constants. -/
structure SpeedConst.Physical (c : SpeedConst) : Prop where
  ev : 0 < c.ev
  mass : 0 < c.mass
  light : 0 < c.light

/-- The Lorentz factor minus one. -/
noncomputable def kineticRatio (c : SpeedConst) (energy : ℝ) : ℝ := c.ev * energy / (c.mass * c.light ^ 2)

theorem velocity_eq (c : SpeedConst) (e : ℕ → ℝ) (g : ℕ) :
    energyVelocity c (some e) g = c.light / (kineticRatio c (centre e g) + 1)
      * √((kineticRatio c (centre e g) + 1) ^ 2 - 1) * 100 := by
  have h : 1 / 2 * (e (g + 1) + e g) = centre e g := by unfold centre; ring
  simp only [energyVelocity, h, kineticRatio]

theorem kineticRatio_pos {c : SpeedConst} (hc : SpeedConst.Physical c) {x : ℝ} (hx : 0 < x) :
    0 < kineticRatio c x :=
  div_pos (mul_pos hc.ev hx) (mul_pos hc.mass (pow_pos hc.light 2))

theorem kineticRatio_lt {c : SpeedConst} (hc : SpeedConst.Physical c) {x y : ℝ} (hxy : x < y) :
    kineticRatio c x < kineticRatio c y :=
  div_lt_div_of_pos_right (mul_lt_mul_of_pos_left hxy hc.ev) (mul_pos hc.mass (pow_pos hc.light 2))

theorem root_lt {a : ℝ} (ha : 1 < a) : 0 < √(a ^ 2 - 1) ∧ √(a ^ 2 - 1) < a := by
  have h1 : 0 < a ^ 2 - 1 := by nlinarith
  refine ⟨Real.sqrt_pos.mpr h1, ?_⟩
  rw [Real.sqrt_lt' (by linarith)]
  linarith

theorem root_ratio_lt {a b : ℝ} (ha : 1 < a) (hab : a < b) : √(a ^ 2 - 1) / a < √(b ^ 2 - 1) / b := by
  have hb : 1 < b := ha.trans hab
  have h1 : 0 ≤ a ^ 2 - 1 := by nlinarith
  have h2 : 0 ≤ b ^ 2 - 1 := by nlinarith
  rw [div_lt_div_iff₀ (by linarith) (by linarith)]
  refine lt_of_pow_lt_pow_left₀ 2 (mul_nonneg (Real.sqrt_nonneg _) (by linarith)) ?_
  rw [mul_pow, mul_pow, Real.sq_sqrt h1, Real.sq_sqrt h2]
  have : a ^ 2 < b ^ 2 := by nlinarith
  nlinarith

/-- C48: every group speed is positive and below the speed of light in cm/s, a larger centre energy gives a
strictly larger speed, and without a grid every speed is one. -/
theorem C48_speeds (c : SpeedConst) (hc : SpeedConst.Physical c) (e : ℕ → ℝ) :
    (∀ g, 0 < centre e g → 0 < energyVelocity c (some e) g ∧
      energyVelocity c (some e) g < 100 * c.light) ∧
    (∀ g h, 0 < centre e g → centre e g < centre e h →
      energyVelocity c (some e) g < energyVelocity c (some e) h) ∧
    ∀ g, energyVelocity c none g = 1 := by
  refine ⟨fun g hg => ?_, fun g h hg hgh => ?_, fun g => rfl⟩
  · rw [velocity_eq]
    have h1 := kineticRatio_pos hc hg
    obtain ⟨h2, h3⟩ := root_lt (a := kineticRatio c (centre e g) + 1) (by linarith)
    have hl := hc.light
    refine ⟨by positivity, ?_⟩
    have : c.light / (kineticRatio c (centre e g) + 1) * √((kineticRatio c (centre e g) + 1) ^ 2 - 1)
        < c.light := by
      rw [div_mul_eq_mul_div, div_lt_iff₀ (by linarith)]
      exact mul_lt_mul_of_pos_left h3 hl
    linarith
  · rw [velocity_eq, velocity_eq]
    have h1 := kineticRatio_pos hc hg
    have h2 := kineticRatio_lt hc hgh
    have h3 := root_ratio_lt (a := kineticRatio c (centre e g) + 1)
      (b := kineticRatio c (centre e h) + 1) (by linarith) (by linarith)
    have := mul_lt_mul_of_pos_left h3 hc.light
    have e1 : ∀ x y : ℝ, c.light / x * y * 100 = c.light * (y / x) * 100 := fun x y => by ring
    rw [e1, e1]
    linarith

/-- C48: with increasing nonnegative edges the speeds increase from group to group. -/
theorem C48_increasing (c : SpeedConst) (hc : SpeedConst.Physical c) (e : ℕ → ℝ) (h0 : 0 ≤ e 0) (G : ℕ)
    (he : ∀ g < G, e g < e (g + 1)) :
    ∀ g, g + 1 < G → energyVelocity c (some e) g < energyVelocity c (some e) (g + 1) := by
  have hn : ∀ g ≤ G, 0 ≤ e g := by
    intro g
    induction g with
    | zero => intro _; exact h0
    | succ g ih => intro hg; exact (ih (by omega)).trans (he g (by omega)).le
  intro g hg
  have h1 := he g (by omega)
  have h2 := he (g + 1) hg
  have h3 := hn g (by omega)
  refine (C48_speeds c hc e).2.1 g (g + 1) ?_ ?_ <;> unfold centre <;> linarith

/-- C48 (what the number is): the speed in m/s is the one at which the relativistic kinetic energy
`m c² (1/√(1 - v²/c²) - 1)` equals the group-centre energy. -/
theorem C48_kinetic_energy (c : SpeedConst) (hc : SpeedConst.Physical c) (e : ℕ → ℝ) (g : ℕ)
    (hg : 0 < centre e g) :
    c.mass * c.light ^ 2 * (1 / √(1 - (energyVelocity c (some e) g / 100) ^ 2 / c.light ^ 2) - 1)
      = c.ev * centre e g := by
  rw [velocity_eq]
  have h1 := kineticRatio_pos hc hg
  have hl := hc.light
  have hm := hc.mass
  set a := kineticRatio c (centre e g) + 1 with ha
  have ha1 : 1 < a := by linarith
  have h2 : 0 ≤ a ^ 2 - 1 := by nlinarith
  have h3 : 1 - (c.light / a * √(a ^ 2 - 1) * 100 / 100) ^ 2 / c.light ^ 2 = (1 / a) ^ 2 := by
    have : (c.light / a * √(a ^ 2 - 1) * 100 / 100) ^ 2 = c.light ^ 2 / a ^ 2 * (a ^ 2 - 1) := by
      rw [mul_div_assoc, div_self (by norm_num : (100 : ℝ) ≠ 0), mul_one, mul_pow, Real.sq_sqrt h2, div_pow]
    rw [this]
    field_simp
    ring
  rw [h3, Real.sqrt_sq (by positivity), one_div_one_div]
  have : a - 1 = kineticRatio c (centre e g) := by rw [ha]; ring
  rw [this]
  unfold kineticRatio
  field_simp

/-- The constants of the package are physical, and a three-group grid meets the hypotheses. -/
theorem speedConst_physical : SpeedConst.Physical speedConst := by
  constructor <;> · unfold speedConst; norm_num

example : energyVelocity speedConst (some fun g => (g : ℝ)) 0 < 2.9979246e10 ∧
    energyVelocity speedConst (some fun g => (g : ℝ)) 1 < energyVelocity speedConst (some fun g => (g : ℝ)) 2 := by
  refine ⟨?_, ?_⟩
  · have := ((C48_speeds speedConst speedConst_physical fun g => (g : ℝ)).1 0 (by unfold centre; norm_num)).2
    refine this.trans_le ?_
    unfold speedConst; norm_num
  · exact (C48_increasing speedConst speedConst_physical (fun g => (g : ℝ)) (by norm_num) 3
      (fun g _ => by push_cast; linarith)) 1 (by norm_num)

/-! ## C169: the unit of the energy grid -/

/-- Kinetic energy of a neutron of rest energy `rest` at `v` m/s. -/
noncomputable def kineticEnergy (rest light v : ℝ) : ℝ := rest * (1 / √(1 - v ^ 2 / light ^ 2) - 1)

/-- Rest energy of a neutron in electronvolts (939.6 MeV), from the constants of the package. -/
noncomputable def restEnergy : ℝ := speedConst.mass * speedConst.light ^ 2 / speedConst.ev

/-- C169: read in electronvolts, the grid gives the right speeds: a neutron of 939.5 to 939.6 MeV rest energy moving
with the returned speed (cm/s) has the kinetic energy of the group centre. -/
theorem C169_electronvolts (e : ℕ → ℝ) (g : ℕ) (hg : 0 < centre e g) :
    (939.5e6 < restEnergy ∧ restEnergy < 939.6e6) ∧ speedConst.light = 299792460 ∧
    kineticEnergy restEnergy speedConst.light (energyVelocity speedConst (some e) g / 100) = centre e g := by
  refine ⟨by unfold restEnergy speedConst; norm_num, by unfold speedConst; norm_num, ?_⟩
  have h := C48_kinetic_energy speedConst speedConst_physical e g hg
  have hev : speedConst.ev ≠ 0 := speedConst_physical.ev.ne'
  unfold kineticEnergy restEnergy
  rw [div_mul_eq_mul_div, h]
  field_simp

/-- C169 (violation): read in MeV, as the docstring says, every group gets the speed of a neutron with one millionth of
its energy. -/
theorem C169_violation_mev (e : ℕ → ℝ) (g : ℕ) (hg : 0 < centre e g) :
    kineticEnergy (restEnergy / 1e6) speedConst.light (energyVelocity speedConst (some e) g / 100)
      = centre e g / 1e6 ∧
    kineticEnergy (restEnergy / 1e6) speedConst.light (energyVelocity speedConst (some e) g / 100) ≠ centre e g := by
  have h : kineticEnergy (restEnergy / 1e6) speedConst.light (energyVelocity speedConst (some e) g / 100)
      = centre e g / 1e6 := by
    have := (C169_electronvolts e g hg).2.2
    unfold kineticEnergy at this ⊢
    rw [div_mul_eq_mul_div, this]
  refine ⟨h, ?_⟩
  rw [h]
  intro h2
  have h3 : centre e g = centre e g * 1e6 := (div_eq_iff (by norm_num)).mp h2
  nlinarith

example := C169_violation_mev (fun g => (g : ℝ)) 0 (by unfold centre; norm_num)

/-! ## C79: time_dependence_decay_02 -/

variable {K : Type*} [Field K] [LinearOrder K] [IsStrictOrderedRing K]

/-- The number of halvings at time `t` (microseconds) and the strength of the source. -/
def decayValue (ceil : K → ℕ) (erf : K → K) (t : K) : K :=
  (1 / 2) ^ ceil ((t - 1 / 5) / (1 / 10)) *
    (1 + 2 * (1 - erf ((t - 1 / 10 * (1 + ceil ((t - 1 / 5) / (1 / 10)))) / (1 / 100))))

theorem mem_triples (angles groups s a g : ℕ) :
    (s, a, g) ∈ triples angles groups ↔ s < 2 ∧ a < angles ∧ g < groups := by
  simp only [triples, List.mem_flatMap, List.mem_range, List.mem_map, Prod.mk.injEq]
  constructor
  · rintro ⟨s', hs, a', ha, g', hg, rfl, rfl, rfl⟩; exact ⟨hs, ha, hg⟩
  · rintro ⟨hs, ha, hg⟩; exact ⟨s, hs, a, ha, g, hg, rfl, rfl, rfl⟩

theorem triples_nodup (angles groups : ℕ) : (triples angles groups).Nodup := by
  unfold triples
  rw [List.nodup_flatMap]
  refine ⟨fun s _ => ?_, ?_⟩
  · rw [List.nodup_flatMap]
    refine ⟨fun a _ => (List.nodup_range).map fun x y h => by simpa using h, ?_⟩
    refine (List.nodup_range (n := angles)).imp fun {x y} hxy => ?_
    simp only [Function.onFun, List.disjoint_left, List.mem_map]
    rintro i ⟨g, _, rfl⟩ ⟨g', _, h⟩
    simp only [Prod.mk.injEq, true_and] at h
    exact hxy h.1.symm
  · refine (List.nodup_range (n := 2)).imp fun {x y} hxy => ?_
    simp only [Function.onFun, List.disjoint_left, List.mem_flatMap, List.mem_map]
    rintro i ⟨a, _, g, _, rfl⟩ ⟨a', _, g', _, h⟩
    simp only [Prod.mk.injEq] at h
    exact hxy h.1.symm

/-- The loop over the steps when the assignment at each late step succeeds. -/
theorem decay02_loop {angles groups : ℕ} (micro : K → K) (ceil : K → ℕ) (erf : K → K) (b : ℕ → ℕ → ℕ → K)
    (n : ℕ) (edgesT : ℕ → K) (row : K → ℕ → ℕ → ℕ → K)
    (hrow : ∀ v, assignNonzero ((triples angles groups).filter fun i => decide (b i.1 i.2.1 i.2.2 ≠ 0)) b v
      = .ok (row v)) :
    ∃ out : TimeBoundary K, timeDecay02 angles groups micro ceil erf b n edgesT = .ok out ∧ out.steps = n - 1 ∧
      ∀ t < n - 1, out.val t = if 1 / 5 ≤ micro (edgesT (t + 1)) then
        row (decayValue ceil erf (micro (edgesT (t + 1)))) else b := by
  unfold timeDecay02
  have key : ∀ m, ∃ out, loopE m (decay02Step ((triples angles groups).filter fun i =>
      decide (b i.1 i.2.1 i.2.2 ≠ 0)) micro ceil erf edgesT) (fun _ => b) = (.ok out : Except PyErr _) ∧
      (∀ t < m, out t = if 1 / 5 ≤ micro (edgesT (t + 1)) then
        row (decayValue ceil erf (micro (edgesT (t + 1)))) else b) ∧ ∀ t, m ≤ t → out t = b := by
    intro m
    induction m with
    | zero => exact ⟨_, rfl, fun t ht => absurd ht (by omega), fun t _ => rfl⟩
    | succ m ih =>
      obtain ⟨out, h1, h2, h3⟩ := ih
      rw [loopE, h1]
      simp only [decay02Step]
      by_cases hl : 1 / 5 ≤ micro (edgesT (m + 1))
      · rw [if_pos hl, h3 m (le_refl _), hrow]
        refine ⟨_, rfl, fun t ht => ?_, fun t ht => ?_⟩
        · rcases Nat.lt_or_ge t m with h | h
          · rw [Function.update_of_ne (by omega)]; exact h2 t h
          · have : t = m := by omega
            subst this
            rw [Function.update_self, if_pos hl]; rfl
        · rw [Function.update_of_ne (by omega)]; exact h3 t (by omega)
      · rw [if_neg hl]
        refine ⟨_, rfl, fun t ht => ?_, fun t ht => h3 t (by omega)⟩
        rcases Nat.lt_or_ge t m with h | h
        · exact h2 t h
        · have : t = m := by omega
          subst this
          rw [if_neg hl]; exact h3 t (le_refl _)
  obtain ⟨out, h1, h2, _⟩ := key (n - 1)
  rw [h1]
  exact ⟨_, rfl, rfl, h2⟩

/-- C79: if exactly one entry of the boundary is nonzero, the result has one entry per step; before 0.2
microseconds it is the boundary, afterwards only that entry is changed, to the decayed strength. -/
theorem C79_single_entry_partial {angles groups : ℕ} (micro : K → K) (ceil : K → ℕ) (erf : K → K)
    (b : ℕ → ℕ → ℕ → K) (n : ℕ) (edgesT : ℕ → K) (s0 a0 g0 : ℕ) (hs : s0 < 2) (ha : a0 < angles)
    (hg : g0 < groups)
    (hb : ∀ s < 2, ∀ a < angles, ∀ g < groups, b s a g ≠ 0 ↔ (s = s0 ∧ a = a0 ∧ g = g0)) :
    ∃ out : TimeBoundary K, timeDecay02 angles groups micro ceil erf b n edgesT = .ok out ∧ out.steps = n - 1 ∧
      (∀ t < n - 1, micro (edgesT (t + 1)) < 1 / 5 → out.val t = b) ∧
      ∀ t < n - 1, 1 / 5 ≤ micro (edgesT (t + 1)) → ∀ s a g,
        out.val t s a g = if s = s0 ∧ a = a0 ∧ g = g0 then decayValue ceil erf (micro (edgesT (t + 1)))
          else b s a g := by
  have hlist : ((triples angles groups).filter fun i => decide (b i.1 i.2.1 i.2.2 ≠ 0)) = [(s0, a0, g0)] := by
    refine List.perm_singleton.mp ((List.perm_ext_iff_of_nodup ((triples_nodup _ _).filter _)
      (List.nodup_singleton _)).mpr ?_)
    rintro ⟨s, a, g⟩
    rw [List.mem_filter, mem_triples, List.mem_singleton]
    simp only [decide_eq_true_eq, Prod.mk.injEq]
    constructor
    · rintro ⟨⟨h1, h2, h3⟩, h4⟩; exact (hb s h1 a h2 g h3).mp h4
    · rintro ⟨rfl, rfl, rfl⟩; exact ⟨⟨hs, ha, hg⟩, (hb _ hs _ ha _ hg).mpr ⟨rfl, rfl, rfl⟩⟩
  obtain ⟨out, h1, h2, h3⟩ := decay02_loop (angles := angles) (groups := groups) micro ceil erf b n edgesT
    (fun v s a g => if (s, a, g) = (s0, a0, g0) then v else b s a g) (fun v => by rw [hlist]; rfl)
  refine ⟨out, h1, h2, fun t ht hlt => ?_, fun t ht hle s a g => ?_⟩
  · rw [h3 t ht, if_neg (not_le.mpr hlt)]
  · rw [h3 t ht, if_pos hle]
    simp only [Prod.mk.injEq]

/-- C79: with `0 <= erf <= 1` on nonnegative arguments and `ceil` the least natural number above, the
decayed strength lies between `2^-k` and `3 * 2^-k` where `k` counts the tenths of a microsecond started
after 0.2. -/
theorem C79_strength_bounds (ceil : K → ℕ) (hceil : ∀ x, 0 ≤ x → x ≤ ceil x ∧ (ceil x : K) < x + 1)
    (erf : K → K) (herf : ∀ x, 0 ≤ x → 0 ≤ erf x ∧ erf x ≤ 1) (t : K) (ht : 1 / 5 ≤ t) :
    (1 / 2) ^ ceil ((t - 1 / 5) / (1 / 10)) ≤ decayValue ceil erf t ∧
      decayValue ceil erf t ≤ 3 * (1 / 2) ^ ceil ((t - 1 / 5) / (1 / 10)) := by
  have h0 : 0 ≤ (t - 1 / 5) / (1 / 10) := div_nonneg (by linarith) (by norm_num)
  obtain ⟨_, h2⟩ := hceil _ h0
  have h3 : 0 ≤ (t - 1 / 10 * (1 + (ceil ((t - 1 / 5) / (1 / 10)) : K))) / (1 / 100) := by
    refine div_nonneg ?_ (by norm_num)
    have : (t - 1 / 5) / (1 / 10) = 10 * t - 2 := by ring
    rw [this] at h2 ⊢
    linarith
  obtain ⟨h4, h5⟩ := herf _ h3
  have hp : (0 : K) < (1 / 2) ^ ceil ((t - 1 / 5) / (1 / 10)) := by positivity
  unfold decayValue
  constructor
  · exact le_mul_of_one_le_right hp.le (by linarith)
  · rw [mul_comm 3]
    exact mul_le_mul_of_nonneg_left (by linarith) hp.le

/-- C79 (violation): a boundary that is zero everywhere does not stay zero: from 0.2 microseconds on every
entry, at both faces, in every direction and group, is set to the decayed strength. -/
theorem C79_violation_zero_boundary {angles groups : ℕ} (micro : K → K) (ceil : K → ℕ) (erf : K → K)
    (b : ℕ → ℕ → ℕ → K) (n : ℕ) (edgesT : ℕ → K)
    (hb : ∀ s < 2, ∀ a < angles, ∀ g < groups, b s a g = 0) :
    ∃ out : TimeBoundary K, timeDecay02 angles groups micro ceil erf b n edgesT = .ok out ∧
      ∀ t < n - 1, 1 / 5 ≤ micro (edgesT (t + 1)) → ∀ s a g,
        out.val t s a g = decayValue ceil erf (micro (edgesT (t + 1))) := by
  have hlist : ((triples angles groups).filter fun i => decide (b i.1 i.2.1 i.2.2 ≠ 0)) = [] := by
    rw [List.filter_eq_nil_iff]
    rintro ⟨s, a, g⟩ h
    obtain ⟨h1, h2, h3⟩ := (mem_triples _ _ _ _ _).mp h
    simp [hb s h1 a h2 g h3]
  obtain ⟨out, h1, _, h3⟩ := decay02_loop (angles := angles) (groups := groups) micro ceil erf b n edgesT
    (fun v _ _ _ => v) (fun v => by rw [hlist]; rfl)
  exact ⟨out, h1, fun t ht hle s a g => by rw [h3 t ht, if_pos hle]⟩

/-- C79 (violation): with two or more nonzero entries the call raises IndexError as soon as one step ends
at or after 0.2 microseconds. -/
theorem C79_violation_many_entries {angles groups : ℕ} (micro : K → K) (ceil : K → ℕ) (erf : K → K)
    (b : ℕ → ℕ → ℕ → K) (n : ℕ) (edgesT : ℕ → K) (s a g s' a' g' : ℕ) (hs : s < 2) (ha : a < angles)
    (hg : g < groups) (hs' : s' < 2) (ha' : a' < angles) (hg' : g' < groups) (hne : (s, a, g) ≠ (s', a', g'))
    (hb : b s a g ≠ 0) (hb' : b s' a' g' ≠ 0) (t : ℕ) (ht : t < n - 1)
    (hlate : 1 / 5 ≤ micro (edgesT (t + 1))) :
    timeDecay02 angles groups micro ceil erf b n edgesT = .error .indexError := by
  have hrow : ∀ (c : ℕ → ℕ → ℕ → K) v, assignNonzero ((triples angles groups).filter fun i =>
      decide (b i.1 i.2.1 i.2.2 ≠ 0)) c v = .error .indexError := by
    intro c v
    have hm : (s, a, g) ∈ (triples angles groups).filter fun i => decide (b i.1 i.2.1 i.2.2 ≠ 0) := by
      rw [List.mem_filter, mem_triples]; exact ⟨⟨hs, ha, hg⟩, by simpa using hb⟩
    have hm' : (s', a', g') ∈ (triples angles groups).filter fun i => decide (b i.1 i.2.1 i.2.2 ≠ 0) := by
      rw [List.mem_filter, mem_triples]; exact ⟨⟨hs', ha', hg'⟩, by simpa using hb'⟩
    unfold assignNonzero
    split
    · next h => rw [h] at hm; simp at hm
    · next h =>
      rw [h, List.mem_singleton] at hm hm'
      exact absurd (hm.trans hm'.symm) hne
    · rfl
  have hstep : decay02Step ((triples angles groups).filter fun i => decide (b i.1 i.2.1 i.2.2 ≠ 0)) micro ceil
      erf edgesT = fun tt out => if 1 / 5 ≤ micro (edgesT (tt + 1)) then .error .indexError else .ok out := by
    funext tt out
    unfold decay02Step
    simp only [hrow]
  unfold timeDecay02
  rw [hstep]
  have key : ∀ m, ((∃ u < m, 1 / 5 ≤ micro (edgesT (u + 1))) → loopE m (fun tt (out : ℕ → ℕ → ℕ → ℕ → K) =>
      if 1 / 5 ≤ micro (edgesT (tt + 1)) then (.error .indexError : Except PyErr (ℕ → ℕ → ℕ → ℕ → K))
      else .ok out) (fun _ => b) = .error .indexError) ∧
      ((∀ u < m, ¬ 1 / 5 ≤ micro (edgesT (u + 1))) → loopE m (fun tt (out : ℕ → ℕ → ℕ → ℕ → K) =>
      if 1 / 5 ≤ micro (edgesT (tt + 1)) then (.error .indexError : Except PyErr (ℕ → ℕ → ℕ → ℕ → K))
      else .ok out) (fun _ => b) = .ok fun _ => b) := by
    intro m
    induction m with
    | zero => exact ⟨fun ⟨u, hu, _⟩ => absurd hu (by omega), fun _ => rfl⟩
    | succ m ih =>
      refine ⟨fun ⟨u, hu, hl⟩ => ?_, fun h => ?_⟩
      · rw [loopE]
        by_cases h : ∃ u < m, 1 / 5 ≤ micro (edgesT (u + 1))
        · rw [ih.1 h]
        · push Not at h
          rw [ih.2 fun u hu => not_le.mpr (h u hu)]
          have : u = m := by
            by_contra hum
            exact absurd hl (not_le.mpr (h u (by omega)))
          subst this
          simp only [if_pos hl]
      · rw [loopE, ih.2 fun u hu => h u (by omega)]
        simp only [if_neg (h m (by omega))]
  rw [(key (n - 1)).1 ⟨t, ht, hlate⟩]

/-- C79 (violation): the late strength does not depend on the strength that was given - a source of 1000 and
a source of 1 decay to the same values - and it is not bounded by it: just after 0.2 microseconds (one
halving, small argument of erf) it exceeds one. -/
theorem C79_violation_not_scaled {angles groups : ℕ} (micro : K → K) (ceil : K → ℕ) (erf : K → K)
    (b : ℕ → ℕ → ℕ → K) (n : ℕ) (edgesT : ℕ → K) (s0 a0 g0 : ℕ) (hs : s0 < 2) (ha : a0 < angles)
    (hg : g0 < groups)
    (hb : ∀ s < 2, ∀ a < angles, ∀ g < groups, b s a g ≠ 0 ↔ (s = s0 ∧ a = a0 ∧ g = g0)) (c : K) (hc : c ≠ 0) :
    ∃ out out' : TimeBoundary K, timeDecay02 angles groups micro ceil erf b n edgesT = .ok out ∧
      timeDecay02 angles groups micro ceil erf (fun s a g => c * b s a g) n edgesT = .ok out' ∧
      (∀ t < n - 1, 1 / 5 ≤ micro (edgesT (t + 1)) → out.val t s0 a0 g0 = out'.val t s0 a0 g0) ∧
      ∀ t < n - 1, 1 / 5 ≤ micro (edgesT (t + 1)) →
        ceil ((micro (edgesT (t + 1)) - 1 / 5) / (1 / 10)) = 1 →
        erf ((micro (edgesT (t + 1)) - 1 / 5) / (1 / 100)) < 1 / 2 → 1 < out.val t s0 a0 g0 := by
  obtain ⟨out, h1, _, _, h2⟩ := C79_single_entry_partial micro ceil erf b n edgesT s0 a0 g0 hs ha hg hb
  obtain ⟨out', h1', _, _, h2'⟩ := C79_single_entry_partial micro ceil erf (fun s a g => c * b s a g) n edgesT
    s0 a0 g0 hs ha hg (fun s h3 a h4 g h5 => by
      rw [mul_ne_zero_iff]; exact ⟨fun h => (hb s h3 a h4 g h5).mp h.2, fun h => ⟨hc, (hb s h3 a h4 g h5).mpr h⟩⟩)
  refine ⟨out, out', h1, h1', fun t ht hl => ?_, fun t ht hl hk he => ?_⟩
  · rw [h2 t ht hl, h2' t ht hl]; simp
  · rw [h2 t ht hl, if_pos ⟨rfl, rfl, rfl⟩]
    unfold decayValue
    rw [hk]
    have : (micro (edgesT (t + 1)) - 1 / 10 * (1 + ((1 : ℕ) : K))) = micro (edgesT (t + 1)) - 1 / 5 := by
      push_cast; ring
    rw [this]
    linarith

/-- A boundary with one nonzero entry (left face, one angle, second of two groups), two steps ending at 0.1
and 0.25 microseconds. -/
example : ∃ out : TimeBoundary ℚ, timeDecay02 1 2 (fun t => t) (fun x => ⌈x⌉₊) (fun x => x / (1 + x))
    (fun s _ g => if s = 0 ∧ g = 1 then 7 else 0) 3 (fun t => if t = 0 then 0 else if t = 1 then 1 / 10 else 1 / 4)
      = .ok out ∧ out.val 0 0 0 1 = 7 ∧ out.val 1 0 0 0 = 0 ∧ out.val 1 0 0 1 = 2 / 3 := by
  obtain ⟨out, h1, _, h2, h3⟩ := C79_single_entry_partial (angles := 1) (groups := 2) (fun t : ℚ => t)
    (fun x => ⌈x⌉₊) (fun x => x / (1 + x)) (fun s _ g => if s = 0 ∧ g = 1 then 7 else 0) 3
    (fun t => if t = 0 then 0 else if t = 1 then 1 / 10 else 1 / 4) 0 0 1 (by norm_num) (by norm_num)
    (by norm_num) (by
      intro s hs a ha g hg
      have : a = 0 := by omega
      subst this
      by_cases h : s = 0 ∧ g = 1 <;> simp [h])
  refine ⟨out, h1, ?_, ?_, ?_⟩
  · rw [h2 0 (by norm_num) (by norm_num)]; norm_num
  · rw [h3 1 (by norm_num) (by norm_num)]; norm_num
  · rw [h3 1 (by norm_num) (by norm_num)]
    have hc : ⌈(1 / 2 : ℚ)⌉₊ = 1 := by norm_num [Nat.ceil_eq_iff]
    norm_num [decayValue]
    norm_num [hc]

/-! ## C80: energy_grid -/

/-- C80: without the packaged index tables (`optimize=False`, or labels that are not in them) the fine index
cuts the stock grid into `fine` blocks and the coarse index cuts the fine groups into `coarse` blocks, all
of nearly equal size. -/
theorem C80_computed_indices_partial (supported : ℕ → Option ℕ) (table : ℕ → ℕ → Option (ℕ → ℕ))
    (grid size fine coarse : ℕ) (optimize : Bool) (hgrid : supported grid = some size)
    (hopt : optimize = true → table grid fine = none ∧ table grid coarse = none)
    (hf : 1 ≤ fine) (hfs : fine ≤ size) (hc : 1 ≤ coarse) (hcf : coarse ≤ fine) :
    ∃ f c, energyGrid supported table grid fine (some coarse) optimize = .ok (f, some c) ∧
      BalancedPartition size fine f ∧ BalancedPartition fine coarse c := by
  obtain ⟨f, hf1, hf2⟩ := C01_energy_coarse_index size fine hf hfs
  obtain ⟨c, hc1, hc2⟩ := C01_energy_coarse_index fine coarse hc hcf
  refine ⟨f, c, ?_, hf2, hc2⟩
  unfold energyGrid
  have h1 : (if optimize = true then table grid fine else none) = none := by
    split_ifs with h
    · exact (hopt h).1
    · rfl
  have h2 : (if optimize = true then table grid coarse else none) = none := by
    split_ifs with h
    · exact (hopt h).2
    · rfl
  simp only [hgrid, h1, h2, hf1, hc1]

/-- C80: with packaged tables the fine index is the table's, and the coarse index is correct if the problem
uses the whole stock grid. -/
theorem C80_packaged_whole_grid_partial (supported : ℕ → Option ℕ) (table : ℕ → ℕ → Option (ℕ → ℕ))
    (grid size coarse : ℕ) (hgrid : supported grid = some size)
    (htab : ∀ k e, table grid k = some e → IsPartition k size e)
    (hs : 1 ≤ size) (hc : 1 ≤ coarse) (hcf : coarse ≤ size) :
    ∃ f c, energyGrid supported table grid size (some coarse) true = .ok (f, some c) ∧
      IsPartition size size f ∧ IsPartition coarse size c := by
  obtain ⟨f, hf1, hf2⟩ := C01_energy_coarse_index size size hs (le_refl _)
  obtain ⟨c, hc1, hc2⟩ := C01_energy_coarse_index size coarse hc hcf
  unfold energyGrid
  simp only [hgrid, if_true]
  cases h1 : table grid size with
  | none =>
    cases h2 : table grid coarse with
    | none => exact ⟨f, c, by simp only [hf1, hc1], hf2.1, hc2.1⟩
    | some e => exact ⟨f, e, by simp only [hf1], hf2.1, htab _ _ h2⟩
  | some e1 =>
    cases h2 : table grid coarse with
    | none => exact ⟨e1, c, by simp only [hc1], htab _ _ h1, hc2.1⟩
    | some e => exact ⟨e1, e, rfl, htab _ _ h1, htab _ _ h2⟩

/-- C80 (violation): if the problem has fewer groups than the stock grid and the packaged tables contain the
coarse label, the coarse index ends at the size of the stock grid, not at the number of fine groups, so it
does not cut the fine groups. -/
theorem C80_violation_coarse_of_stock_grid (supported : ℕ → Option ℕ) (table : ℕ → ℕ → Option (ℕ → ℕ))
    (grid size fine coarse : ℕ) (hgrid : supported grid = some size) (e : ℕ → ℕ)
    (htab : table grid coarse = some e) (he : IsPartition coarse size e) (hf : 1 ≤ fine) (hfs : fine < size) :
    ∃ f, energyGrid supported table grid fine (some coarse) true = .ok (f, some e) ∧
      ¬ IsPartition coarse fine e := by
  obtain ⟨f, hf1, _⟩ := C01_energy_coarse_index size fine hf hfs.le
  have hno : ¬ IsPartition coarse fine e := fun h => by
    have := h.last
    rw [he.last] at this
    omega
  unfold energyGrid
  simp only [hgrid, if_true, htab]
  cases table grid fine with
  | none => exact ⟨f, by simp only [hf1], hno⟩
  | some e1 => exact ⟨e1, rfl, hno⟩

/-- C80 (violation): any other stock grid raises UnboundLocalError instead of a message about the supported
grids, whatever the other arguments. -/
theorem C80_violation_unsupported_grid (supported : ℕ → Option ℕ) (table : ℕ → ℕ → Option (ℕ → ℕ))
    (grid fine : ℕ) (coarse : Option ℕ) (optimize : Bool) (h : supported grid = none) :
    energyGrid supported table grid fine coarse optimize = .error .unboundLocal := by
  unfold energyGrid; rw [h]

/-- The 87-group grid with a packaged table for 10 groups (one group per edge up to 9, then the rest), a
problem of 20 groups. -/
example : ∃ f, energyGrid (fun g => if g = 87 then some 87 else none)
    (fun _ k => if k = 10 then some fun c => if c < 10 then c else 87 else none) 87 20 (some 10) true
      = .ok (f, some fun c => if c < 10 then c else 87) ∧
      ¬ IsPartition 10 20 fun c => if c < 10 then c else 87 :=
  C80_violation_coarse_of_stock_grid (fun g => if g = 87 then some 87 else none)
    (fun _ k => if k = 10 then some fun c => if c < 10 then c else 87 else none) 87 87 20 10 rfl _ rfl
    ⟨rfl, rfl, fun c hc => by simp only [hc, if_true]; split_ifs <;> omega⟩ (by norm_num) (by norm_num)

end Discrete1.Props
