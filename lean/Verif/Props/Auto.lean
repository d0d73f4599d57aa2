import Verif.Model.Auto
import Verif.Props.HybridTime
import Verif.Props.Hybrid
import Verif.Props.Setup

/-!
# Automatic hybrid drivers: C111, C112, C113, C114
-/

set_option linter.unusedSectionVars false
set_option linter.unusedSimpArgs false

namespace Discrete1.Props

open Finset Discrete1.Spec Discrete1.Slab Discrete1.Tools Discrete1.MultiGroup Discrete1.Drivers
  Discrete1.Auto Discrete1.Setup Discrete1.Hybrid

variable {K : Type} [Field K] [LinearOrder K] [IsStrictOrderedRing K]

/-- What a caller of the automatic drivers must supply about the energy grid: increasing energy bounds, a
fine grid cut from them, and a coarse grid that cuts the `G` fine groups into `groupsC` blocks. -/
structure GridFor (G groupsC : ℕ) (grid : EnergyGrid K) : Prop where
  increasing : ∃ N, Increasing N grid.edges ∧ IsPartition G N grid.gidxU
  coarse : IsPartition grid.coarseGroups G grid.gidxC
  number : groupsC = grid.coarseGroups

/-- What a caller must supply about the coarse ordinates: either the fine number of them, or a number for
which the Gauss rule has that many nonzero ordinates, and a `bc_x` that `angular_x` understands. -/
def AnglesFor (p : Problem K) (bc : BcX) (gauss : ℕ → List (K × K)) (anglesC : ℕ) : Prop :=
  anglesC = p.angles ∨
    ((bc = .list 0 0 ∨ bc = .list 1 0 ∨ bc = .list 0 1) ∧ (gauss anglesC).length = anglesC ∧
      ∀ x ∈ gauss anglesC, x.1 ≠ 0)

/-- The group data seen on the coarse grid: totals are energy-width averages over the block, transfer rates
(out of a block, averaged over the incoming block) are sums over outgoing groups of energy-width averages,
velocities are plain means. -/
structure Collapsed (G : ℕ) (grid : EnergyGrid K) (xsTotal : ℕ → ℕ → K) (xs : ℕ → ℕ → ℕ → K)
    (velocity : ℕ → K) (xsTotalC : ℕ → ℕ → K) (xsC : ℕ → ℕ → ℕ → K) (velocityC : ℕ → K)
    (coarse : ℕ → ℕ) (factor : ℕ → K) : Prop where
  total : ∀ c < grid.coarseGroups, ∀ m,
    xsTotalC m c * (grid.edges (grid.gidxU (grid.gidxC (c + 1))) - grid.edges (grid.gidxU (grid.gidxC c)))
      = ∑ g ∈ Ico (grid.gidxC c) (grid.gidxC (c + 1)),
          xsTotal m g * (grid.edges (grid.gidxU (g + 1)) - grid.edges (grid.gidxU g))
  transfer : ∀ a < grid.coarseGroups, ∀ b < grid.coarseGroups, ∀ m,
    xsC m a b * (grid.edges (grid.gidxU (grid.gidxC (b + 1))) - grid.edges (grid.gidxU (grid.gidxC b)))
      = ∑ og ∈ Ico (grid.gidxC a) (grid.gidxC (a + 1)), ∑ ig ∈ Ico (grid.gidxC b) (grid.gidxC (b + 1)),
          xs m og ig * (grid.edges (grid.gidxU (ig + 1)) - grid.edges (grid.gidxU ig))
  speed : ∀ c < grid.coarseGroups,
    velocityC c * ((grid.gidxC (c + 1) - grid.gidxC c : ℕ) : K)
      = ∑ g ∈ Ico (grid.gidxC c) (grid.gidxC (c + 1)), velocity g
  block : ∀ g < G, coarse g < grid.coarseGroups ∧ InBlock grid.gidxC (coarse g) g
  share : ∀ g < G,
    factor g * (grid.edges (grid.gidxU (grid.gidxC (coarse g + 1)))
      - grid.edges (grid.gidxU (grid.gidxC (coarse g))))
      = grid.edges (grid.gidxU (g + 1)) - grid.edges (grid.gidxU g)

/-- A partition of `G` groups into `G` blocks is the identity. -/
theorem partition_full {G : ℕ} {e : ℕ → ℕ} (h : IsPartition G G e) : ∀ c ≤ G, e c = c := by
  have h1 : ∀ c ≤ G, c ≤ e c := by
    intro c
    induction c with
    | zero => intro _; omega
    | succ c ih => intro hc; have := h.strict c (by omega); have := ih (by omega); omega
  have h2 : ∀ k ≤ G, e (G - k) + k ≤ G := by
    intro k
    induction k with
    | zero => intro _; simp [h.last]
    | succ k ih =>
      intro hk
      have h3 := h.strict (G - (k + 1)) (by omega)
      rw [show G - (k + 1) + 1 = G - k by omega] at h3
      have := ih (by omega)
      omega
  intro c hc
  have h3 := h1 c hc
  have h4 := h2 (G - c) (by omega)
  rw [show G - (G - c) = c by omega] at h4
  omega

theorem collidedAngles_ok {p : Problem K} {bc : BcX} {gauss : ℕ → List (K × K)} {anglesC : ℕ}
    (h : AnglesFor p bc gauss anglesC) (hne : ∀ n < p.angles, p.angleX n ≠ 0) :
    ∃ x w, collidedAngles p bc gauss anglesC = .ok (x, w) ∧ ∀ n < anglesC, x n ≠ 0 := by
  unfold collidedAngles
  by_cases ha : anglesC = p.angles
  · rw [if_pos ha]; exact ⟨_, _, rfl, by rw [ha]; exact hne⟩
  rw [if_neg ha]
  obtain ⟨hbc, hlen, hnz⟩ := h.resolve_left ha
  have hm : ∀ l : List (K × K), l.Perm (normalisedPairs (gauss anglesC)) →
      ∀ n < anglesC, (l.getD n (0, 0)).1 ≠ 0 := by
    intro l hl n hn
    have hl' : n < l.length := by rw [hl.length_eq, normalisedPairs, List.length_map, hlen]; exact hn
    rw [List.getD_eq_getElem _ _ hl']
    have := hl.mem_iff.mp (List.getElem_mem hl')
    rw [normalisedPairs, List.mem_map] at this
    obtain ⟨q, hq, he⟩ := this
    rw [← he]; exact hnz q hq
  rcases hbc with rfl | rfl | rfl
  · exact ⟨_, _, rfl, hm _ (List.Perm.refl _)⟩
  · exact ⟨_, _, rfl, hm _ (sortPairs_perm _)⟩
  · exact ⟨_, _, rfl, hm _ ((List.reverse_perm _).trans (sortPairs_perm _))⟩

theorem width_pos {G groupsC : ℕ} {grid : EnergyGrid K} (h : GridFor G groupsC grid) {c : ℕ}
    (hc : c < grid.coarseGroups) :
    0 < grid.edges (grid.gidxU (grid.gidxC (c + 1))) - grid.edges (grid.gidxU (grid.gidxC c)) := by
  obtain ⟨N, hE, hF⟩ := h.increasing
  exact diffIdx_pos (increasing_comp hE hF) h.coarse hc

/-- C111: the automatic drivers with a fission matrix (and no `chi`).  For every admissible grid and coarse
quadrature the call succeeds; the collided problem has `groups_c` groups and `angles_c` nonzero ordinates on
the same mesh; its data are collapsed from the fine data (`Collapsed`); and every step is the hybrid step
of C36 on these data. -/
theorem C111_auto_steps (second : Bool) (p : Problem K) (bc : BcX) (gauss : ℕ → List (K × K))
    (convC : (ℕ → ℕ → K) → (ℕ → ℕ → K) → Bool) (M : ℕ) (xsTotal : ℕ → ℕ → K)
    (scatter fission : ℕ → ℕ → ℕ → K) (velocity : ℕ → K) (external boundary : TimeArr K)
    (anglesC groupsC : ℕ) (grid : EnergyGrid K) (steps : ℕ) (dt : K) (init : ℕ → ℕ → ℕ → K)
    (hok : TimedOk p xsTotal velocity dt) (hG : 0 < p.groups) (hgrid : GridFor p.groups groupsC grid)
    (hang : AnglesFor p bc gauss anglesC) (hext : Covers external steps) (hbnd : Covers boundary steps) :
    ∃ (pC : Problem K) (xsTotalC : ℕ → ℕ → K) (xsC : ℕ → ℕ → ℕ → K) (velocityC : ℕ → K)
      (coarse : ℕ → ℕ) (factor : ℕ → K)
      (out : ℕ → ℕ → ℕ → K) (psi u : ℕ → ℕ → ℕ → ℕ → K) (phiC : ℕ → ℕ → ℕ → K) (S : ℕ → Arr3 K),
      autoBdf second p bc gauss convC M xsTotal scatter (.matrix fission) velocity external boundary anglesC
        groupsC grid steps dt none none init = .ok out ∧
      pC.groups = groupsC ∧ pC.angles = anglesC ∧ pC.cells = p.cells ∧ pC.dx = p.dx ∧ pC.mm = p.mm ∧
      pC.bcL = p.bcL ∧ pC.bcR = p.bcR ∧
      (anglesC = p.angles → pC.angleX = p.angleX ∧ pC.angleW = p.angleW) ∧
      (∀ c < groupsC, SlabOk pC xsTotalC c) ∧
      Collapsed p.groups grid xsTotal (fun m g g' => scatter m g g' + fission m g g') velocity xsTotalC xsC
        velocityC coarse factor ∧
      psi 0 = init ∧
      ∀ j < steps,
        ImplicitStep p xsTotal (fun _ _ _ => 0) (fun _ _ => 0) (timeRate second j psi (u j) velocity dt)
          (entry external j) (entry boundary j) (u j) ∧
        CollidedSource p pC (fun m g g' => scatter m g g' + fission m g g') coarse (u j) (S j) ∧
        sourceIteration pC (fun m c => xsTotalC m c + timeCoef K second j / (velocityC c * dt))
          (.iso xsC) (S j) ⟨1, 1, fun _ _ _ => 0⟩ (fun _ _ => 0) = .ok (phiC j) ∧
        ImplicitStep p xsTotal (fun m g g' => scatter m g g' + fission m g g')
          (fun i g => quadrature p (u j) i g + phiC j i (coarse g) * factor g)
          (timeRate second j psi (psi (j + 1)) velocity dt) (entry external j) (entry boundary j)
          (psi (j + 1)) ∧
        ∀ i g, out j i g = quadrature p (psi (j + 1)) i g := by
  obtain ⟨x, w, hxw, hx⟩ := collidedAngles_ok hang (hok.ok 0 hG).nonzero
  obtain ⟨N, hE, hF⟩ := hgrid.increasing
  have hC := hgrid.coarse
  have hinc := increasing_comp hE hF
  set idx := indexing grid.coarseGroups grid.edges grid.gidxU grid.gidxC with hidx
  have hblock : ∀ g < p.groups, idx.2.1 g < grid.coarseGroups ∧ InBlock grid.gidxC (idx.2.1 g) g :=
    fun g hg => (C02_collided_index hC hg).1
  have hshare : ∀ g < p.groups,
      idx.2.2 g * (grid.edges (grid.gidxU (grid.gidxC (idx.2.1 g + 1)))
        - grid.edges (grid.gidxU (grid.gidxC (idx.2.1 g))))
        = grid.edges (grid.gidxU (g + 1)) - grid.edges (grid.gidxU g) := fun g hg => by
    obtain ⟨h1, h2⟩ := hblock g hg
    rw [hidx, C03_factor_value (N := N) hC h1 h2]
    exact div_mul_cancel₀ _ (width_pos hgrid h1).ne'
  -- the rest, for any collided data that are collapsed from the fine ones
  suffices main : ∃ (xsTotalC : ℕ → ℕ → K) (sC fC : ℕ → ℕ → ℕ → K) (velocityC : ℕ → K)
      (conv : (ℕ → ℕ → K) → (ℕ → ℕ → K) → Bool),
      autoBdf second p bc gauss convC M xsTotal scatter (.matrix fission) velocity external boundary anglesC
        groupsC grid steps dt none none init =
        hybridRun second p { p with groups := groupsC, angles := anglesC, angleX := x, angleW := w, convOut := conv }
          xsTotal xsTotalC (.iso scatter) (.iso sC) (.matrix fission) (.matrix fC) velocity velocityC
          external boundary idx.2.1 idx.2.2 steps dt init ∧
      Collapsed p.groups grid xsTotal (fun m g g' => scatter m g g' + fission m g g') velocity xsTotalC
        (fun m g g' => sC m g g' + fC m g g') velocityC idx.2.1 idx.2.2 by
    obtain ⟨xsTotalC, sC, fC, velocityC, conv, hrun, hcol⟩ := main
    have hin : ∀ c < grid.coarseGroups, ∀ g ∈ Ico (grid.gidxC c) (grid.gidxC (c + 1)), g < p.groups :=
      fun c hc g hg => lt_of_lt_of_le (mem_Ico.mp hg).2 (by
        have := hC.mono (i := c + 1) (j := grid.coarseGroups) (by omega) le_rfl
        rwa [hC.last] at this)
    have hslab : ∀ c < groupsC, SlabOk
        { p with groups := groupsC, angles := anglesC, angleX := x, angleW := w, convOut := conv }
        xsTotalC c := by
      intro c hc
      rw [hgrid.number] at hc
      refine ⟨(hok.ok 0 hG).slab, hx, fun i hi => ⟨((hok.ok 0 hG).phys i hi).1, ?_⟩⟩
      have h1 := hcol.total c hc (p.mm i)
      have h2 : 0 ≤ ∑ g ∈ Ico (grid.gidxC c) (grid.gidxC (c + 1)),
          xsTotal (p.mm i) g * (grid.edges (grid.gidxU (g + 1)) - grid.edges (grid.gidxU g)) :=
        sum_nonneg fun g hg => mul_nonneg ((hok.ok g (hin c hc g hg)).phys i hi).2
          (sub_nonneg.mpr (hinc g (hin c hc g hg)).le)
      rw [← h1] at h2
      exact nonneg_of_mul_nonneg_left h2 (width_pos hgrid hc)
    have hvC : ∀ c < groupsC, 0 < velocityC c := by
      intro c hc
      rw [hgrid.number] at hc
      have h1 := hcol.speed c hc
      have hst := hC.strict c hc
      have h2 : 0 < ∑ g ∈ Ico (grid.gidxC c) (grid.gidxC (c + 1)), velocity g :=
        sum_pos (fun g hg => hok.velocity g (hin c hc g hg)) ⟨grid.gidxC c, mem_Ico.mpr ⟨le_rfl, hst⟩⟩
      rw [← h1] at h2
      exact pos_of_mul_pos_left h2 (Nat.cast_nonneg _)
    obtain ⟨out, psi, u, phiC, S, k1, k2, k3⟩ := C36_hybrid_steps second p
      { p with groups := groupsC, angles := anglesC, angleX := x, angleW := w, convOut := conv }
      xsTotal xsTotalC scatter sC (.matrix fission) (.matrix fC) velocity velocityC external boundary idx.2.1
      idx.2.2 steps dt init hok hG hslab hvC hext hbnd
    rw [← hrun] at k1
    exact ⟨{ p with groups := groupsC, angles := anglesC, angleX := x, angleW := w, convOut := conv },
      xsTotalC, _, velocityC, idx.2.1, idx.2.2, out, psi, u, phiC, S, k1, rfl, rfl, rfl, rfl, rfl,
      rfl, rfl, fun h => by
        rw [collidedAngles, if_pos h] at hxw
        exact ⟨(congrArg Prod.fst (Except.ok.inj hxw)).symm, (congrArg Prod.snd (Except.ok.inj hxw)).symm⟩, hslab, hcol, k2, k3⟩
  by_cases hgc : groupsC = p.groups
  · have hfull : grid.coarseGroups = p.groups := hgrid.number ▸ hgc
    have hid : ∀ c ≤ p.groups, grid.gidxC c = c := partition_full (hfull ▸ hC)
    refine ⟨xsTotal, scatter, fission, velocity, p.convOut, ?_, ?_, ?_, ?_, hblock, hshare⟩
    · simp only [autoBdf, collidedData, if_pos hgc, hxw, fissionArg]
      rw [hgc]
    · intro c hc m
      rw [hfull] at hc
      rw [hid c hc.le, hid (c + 1) hc, Nat.Ico_succ_singleton, sum_singleton]
    · intro a ha b hb m
      rw [hfull] at ha hb
      rw [hid a ha.le, hid (a + 1) ha, hid b hb.le, hid (b + 1) hb, Nat.Ico_succ_singleton, sum_singleton,
        Nat.Ico_succ_singleton, sum_singleton]
    · intro c hc
      rw [hfull] at hc
      rw [hid c hc.le, hid (c + 1) hc, Nat.Ico_succ_singleton, sum_singleton]
      simp
  · refine ⟨_, _, _, _, convC, (by
      simp only [autoBdf, collidedData, if_neg hgc, hxw, fissionArg, coarsenFission, xsMatrixCoarsen,
        Option.map_some, Option.getD_some]
      rw [hgrid.number]), ?_, ?_, ?_, hblock, hshare⟩
    · intro c hc m
      exact div_mul_cancel₀ _ (width_pos hgrid hc).ne'
    · intro a ha b hb m
      rw [← add_div]
      refine (div_mul_cancel₀ _ (width_pos hgrid hb).ne').trans ?_
      rw [← sum_add_distrib]
      refine sum_congr rfl fun og _ => ?_
      rw [← sum_add_distrib]
      exact sum_congr rfl fun ig _ => (add_mul _ _ _).symm
    · intro c hc
      have := hC.strict c hc
      refine div_mul_cancel₀ _ ?_
      exact_mod_cast (by omega : grid.gidxC (c + 1) - grid.gidxC c ≠ 0)

/-- C112: on the full grid (`groups_c` and `angles_c` equal to the fine numbers) the automatic drivers are
exactly the hybrid drivers run with the fine problem on both levels, identity index and unit factor: for a
fission matrix without `chi`, and for `nusigf` with both `chi` arguments given. -/
theorem C112_full_grid (second : Bool) (p : Problem K) (bc : BcX) (gauss : ℕ → List (K × K))
    (convC : (ℕ → ℕ → K) → (ℕ → ℕ → K) → Bool) (M : ℕ) (xsTotal : ℕ → ℕ → K)
    (scatter : ℕ → ℕ → ℕ → K) (fission : FissionArr K) (chi : Option (ℕ → ℕ → K)) (f : Fission K)
    (velocity : ℕ → K) (external boundary : TimeArr K) (grid : EnergyGrid K) (steps : ℕ) (dt : K)
    (init : ℕ → ℕ → ℕ → K) (hgrid : GridFor p.groups p.groups grid)
    (hf : (∃ F, fission = .matrix F ∧ chi = none ∧ f = .matrix F) ∨
      ∃ v c, fission = .vector v ∧ chi = some c ∧ f = .vector c v) :
    ∃ (coarse : ℕ → ℕ) (factor : ℕ → K), (∀ g < p.groups, coarse g = g ∧ factor g = 1) ∧
      autoBdf second p bc gauss convC M xsTotal scatter fission velocity external boundary p.angles p.groups
        grid steps dt chi chi init =
      hybridRun second p p xsTotal xsTotal (.iso scatter) (.iso scatter) f f velocity velocity external
        boundary coarse factor steps dt init := by
  have hC := hgrid.coarse
  have hfull := hgrid.number
  refine ⟨(indexing grid.coarseGroups grid.edges grid.gidxU grid.gidxC).2.1,
    (indexing grid.coarseGroups grid.edges grid.gidxU grid.gidxC).2.2, fun g hg => ?_, ?_⟩
  · have hid : ∀ c ≤ p.groups, grid.gidxC c = c := partition_full (hfull ▸ hC)
    have hin : InBlock grid.gidxC g g := ⟨(hid g hg.le).le, by rw [hid (g + 1) hg]; omega⟩
    obtain ⟨N, hE, hF⟩ := hgrid.increasing
    constructor
    · exact ((C02_collided_index hC hg).2 g (by omega) hin).symm
    · rw [C03_factor_value (N := N) hC (by omega) hin, hid g hg.le, hid (g + 1) hg]
      exact div_self (sub_pos.mpr (increasing_comp hE hF g hg)).ne'
  · rcases hf with ⟨F, rfl, rfl, rfl⟩ | ⟨v, c, rfl, rfl, rfl⟩ <;>
      simp only [autoBdf, collidedData, if_true, fissionArg, collidedAngles]

/-- C112: hence, for down-scatter problems, the automatic drivers on the full grid return exactly what
`timed1d.backward_euler` / `timed1d.bdf2` return. -/
theorem C112_full_grid_is_timed (second : Bool) (p : Problem K) (bc : BcX) (gauss : ℕ → List (K × K))
    (convC : (ℕ → ℕ → K) → (ℕ → ℕ → K) → Bool) (M : ℕ) (xsTotal : ℕ → ℕ → K)
    (scatter : ℕ → ℕ → ℕ → K) (fission : FissionArr K) (chi : Option (ℕ → ℕ → K)) (f : Fission K)
    (velocity : ℕ → K) (external boundary : TimeArr K) (grid : EnergyGrid K) (steps : ℕ) (dt c : K)
    (hc : 0 ≤ c) (hc1 : c < 1)
    (init : ℕ → ℕ → ℕ → K) (hgrid : GridFor p.groups p.groups grid)
    (hf : (∃ F, fission = .matrix F ∧ chi = none ∧ f = .matrix F) ∨
      ∃ v c, fission = .vector v ∧ chi = some c ∧ f = .vector c v)
    (hok : TimedOk p xsTotal velocity dt) (hG : 0 < p.groups) (hext : Covers external steps)
    (hbnd : Covers boundary steps)
    (hcon : ∀ j < steps, Contractive p
      (fun m g => xsTotal m g + timeCoef K second j / (velocity g * dt))
      (fun m g g' => scatter m g g' + fissionMatrix f m g g') c)
    (hdown : ∀ m g g', g ≤ g' → scatter m g g' + fissionMatrix f m g g' = 0) :
    ∃ outH outT : ℕ → ℕ → ℕ → K,
      autoBdf second p bc gauss convC M xsTotal scatter fission velocity external boundary p.angles p.groups
        grid steps dt chi chi init = .ok outH ∧
      (if second then bdf2 p xsTotal (.iso scatter) f velocity external boundary steps dt init
        else backwardEuler p xsTotal (.iso scatter) f velocity external boundary steps dt init)
        = .ok outT ∧
      ∀ j < steps, ∀ i < p.cells, ∀ g < p.groups, outH j i g = outT j i g := by
  obtain ⟨coarse, factor, hid, heq⟩ := C112_full_grid second p bc gauss convC M xsTotal scatter fission chi f
    velocity external boundary grid steps dt init hgrid hf
  rw [heq]
  exact C37_equal_grids_downscatter second p xsTotal scatter f velocity external boundary coarse factor steps
    dt c hc hc1 init hok hG hid hext hbnd hcon hdown

/-- C113, violated: with fission given as `nusigf` (and `chi`), every call that asks for fewer groups raises
IndexError, whatever the grids, the quadrature, the sources, the number of steps and the `chi` arguments. -/
theorem C113_violation_vector_fission (second : Bool) (p : Problem K) (bc : BcX)
    (gauss : ℕ → List (K × K)) (convC : (ℕ → ℕ → K) → (ℕ → ℕ → K) → Bool) (M : ℕ) (xsTotal : ℕ → ℕ → K)
    (scatter : ℕ → ℕ → ℕ → K) (nusigf : ℕ → ℕ → K) (velocity : ℕ → K) (external boundary : TimeArr K)
    (anglesC groupsC : ℕ) (grid : EnergyGrid K) (steps : ℕ) (dt : K) (chiU chiC : Option (ℕ → ℕ → K))
    (init : ℕ → ℕ → ℕ → K) (hM : 0 < M) (hC : 0 < grid.coarseGroups) (hg : groupsC ≠ p.groups) :
    autoBdf second p bc gauss convC M xsTotal scatter (.vector nusigf) velocity external boundary anglesC
      groupsC grid steps dt chiU chiC init = .error .indexError := by
  simp only [autoBdf, collidedData, if_neg hg, coarsenFission,
    if_neg (show ¬ (M = 0 ∨ grid.coarseGroups = 0) by omega)]

/-- C114, violated: `chi_u` given and `chi_c` left at its default on the full energy grid.  If the number of
materials is neither one nor the number of groups the call raises ValueError. -/
theorem C114_violation_default_chi_raises (second : Bool) (p : Problem K) (bc : BcX)
    (gauss : ℕ → List (K × K)) (convC : (ℕ → ℕ → K) → (ℕ → ℕ → K) → Bool) (M : ℕ) (xsTotal : ℕ → ℕ → K)
    (scatter : ℕ → ℕ → ℕ → K) (nusigf chi : ℕ → ℕ → K) (velocity : ℕ → K) (external boundary : TimeArr K)
    (grid : EnergyGrid K) (steps : ℕ) (dt : K) (init : ℕ → ℕ → ℕ → K) (hM : M ≠ 1) (hMG : M ≠ p.groups) :
    autoBdf second p bc gauss convC M xsTotal scatter (.vector nusigf) velocity external boundary p.angles
      p.groups grid steps dt (some chi) none init = .error .valueError := by
  simp only [autoBdf, collidedData, if_true, fissionArg, collidedAngles,
    if_neg (show ¬ (M = 1 ∨ M = p.groups) by omega)]

/-- C114, violated silently: with a single material the same call runs, but the collided flux is computed as
if every fission neutron were emitted once in *every* group (`chi = 1`), whatever `chi_u` is. -/
theorem C114_violation_default_chi_silent (second : Bool) (p : Problem K) (bc : BcX)
    (gauss : ℕ → List (K × K)) (convC : (ℕ → ℕ → K) → (ℕ → ℕ → K) → Bool) (xsTotal : ℕ → ℕ → K)
    (scatter : ℕ → ℕ → ℕ → K) (nusigf chi : ℕ → ℕ → K) (velocity : ℕ → K) (external boundary : TimeArr K)
    (grid : EnergyGrid K) (steps : ℕ) (dt : K) (init : ℕ → ℕ → ℕ → K) (hone : ∀ m g, nusigf m g = nusigf 0 g) :
    autoBdf second p bc gauss convC 1 xsTotal scatter (.vector nusigf) velocity external boundary p.angles
      p.groups grid steps dt (some chi) none init =
    autoBdf second p bc gauss convC 1 xsTotal scatter (.vector nusigf) velocity external boundary p.angles
      p.groups grid steps dt (some chi) (some fun _ _ => 1) init := by
  have h : transferMatrix (.iso scatter) (.matrix fun _ og ig => nusigf (bidx 1 og) ig)
      = transferMatrix (.iso scatter) (.vector (fun _ _ => 1) nusigf) := by
    simp only [transferMatrix]
    congr 1
    funext m o i
    rw [transferMatrixVec, one_mul, hone m i, show bidx 1 o = 0 by simp [bidx]]
  simp only [autoBdf, collidedData, if_true, fissionArg, collidedAngles, true_or]
  unfold hybridRun
  rw [h]

/-! ### Examples -/

/-- Two fine groups with bounds `0 < 1 < 3`, collapsed into one. -/
def exAutoGrid : EnergyGrid ℚ := ⟨fun g => if g = 0 then 0 else if g = 1 then 1 else 3, id, fun c => 2 * c, 1⟩

/-- The same fine groups, kept. -/
def exAutoFull : EnergyGrid ℚ := ⟨fun g => if g = 0 then 0 else if g = 1 then 1 else 3, id, id, 2⟩

theorem exAutoEdges : Increasing 2 (fun g => if g = 0 then (0 : ℚ) else if g = 1 then 1 else 3) := by
  intro g hg
  interval_cases g <;> norm_num

theorem exAutoGridFor : GridFor 2 1 exAutoGrid :=
  ⟨⟨2, exAutoEdges, ⟨rfl, rfl, fun c _ => Nat.lt_succ_self c⟩⟩, ⟨rfl, rfl, fun c _ => by show 2 * c < 2 * (c + 1); omega⟩, rfl⟩

theorem exAutoFullFor : GridFor 2 2 exAutoFull :=
  ⟨⟨2, exAutoEdges, ⟨rfl, rfl, fun c _ => Nat.lt_succ_self c⟩⟩, ⟨rfl, rfl, fun c _ => Nat.lt_succ_self c⟩, rfl⟩

example (second : Bool) := C111_auto_steps second exProblem (.list 0 0)
  (fun _ => [(-1 / 2, 1), (1 / 2, 1)]) (fun _ _ => false) 2 exTotal
  (fun m g g' => (m + g + g' : ℕ) / 10) (fun _ g _ => if g = 0 then 1 else 0) (fun g => (g : ℚ) + 1)
  exExternal exBoundary 2 1 exAutoGrid 3 (1 / 10) (fun i n g => (i + n + g : ℕ)) exTimed
  (by show 0 < 2; omega) exAutoGridFor
  (Or.inr ⟨Or.inl rfl, rfl, by simp⟩) (Or.inr (le_refl _)) (Or.inl rfl)

example (second : Bool) := C112_full_grid_is_timed second exFine (.list 0 0) (fun _ => []) (fun _ _ => false) 2
  exTotal (fun _ g g' => if g' < g then (1 / 4 : ℚ) else 0)
  (.vector fun _ g => if g = 0 then 1 / 4 else 0) (some fun _ g => if g = 1 then 1 else 0)
  (.vector (fun _ g => if g = 1 then 1 else 0) (fun _ g => if g = 0 then 1 / 4 else 0)) _
  exExternal exBoundary exAutoFull 3 _ (1 / 2) (by norm_num) (by norm_num)
  (fun i n g => (i + n + g : ℕ)) exAutoFullFor (Or.inr ⟨_, _, rfl, rfl, rfl⟩) exTimedFast (by show 0 < 2; omega)
  (Or.inr (le_refl _)) (Or.inl rfl) (fun j _ => exDownscatter second j)
  (fun m g g' h => by
    simp only [fissionMatrix, if_neg (show ¬ g' < g by omega)]
    by_cases h1 : g = 1
    · subst h1; simp [show g' ≠ 0 by omega]
    · simp [h1])

example := C113_violation_vector_fission false exProblem (.list 0 0) (fun _ => []) (fun _ _ => false) 2 exTotal
  (fun _ _ _ => 0) (fun _ _ => 1) (fun _ => 1) exExternal exBoundary 2 1 exAutoGrid 3 (1 / 10)
  (some fun _ _ => 1) (some fun _ _ => 1) (fun _ _ _ => 0) (by omega) (by show 0 < 1; omega)
  (by show 1 ≠ 2; omega)

example := C114_violation_default_chi_raises true exProblem (.list 0 0) (fun _ => []) (fun _ _ => false) 3 exTotal
  (fun _ _ _ => 0) (fun _ _ => 1) (fun _ _ => 1) (fun _ => 1) exExternal exBoundary exAutoFull 3 (1 / 10)
  (fun _ _ _ => 0) (by omega) (by show 3 ≠ 2; omega)

example := C114_violation_default_chi_silent true exProblem (.list 0 0) (fun _ => []) (fun _ _ => false) exTotal
  (fun _ _ _ => 0) (fun _ g => (g : ℚ)) (fun _ g => if g = 0 then 1 else 0) (fun _ => 1) exExternal exBoundary
  exAutoFull 3 (1 / 10) (fun _ _ _ => 0) (fun _ _ => rfl)

end Discrete1.Props
