import Verif.Spec.Access
import Verif.Props.Hybrid

/-!
# C168: the compiled kernels stay inside their arrays
-/

set_option linter.unusedSectionVars false
set_option linter.unusedSimpArgs false

namespace Discrete1.Props

open Discrete1.Access Discrete1.Hybrid

theorem safe_append {a b : List Call} : Safe (a ++ b) ↔ Safe a ∧ Safe b := by
  simp [Safe, or_imp, forall_and]

theorem safe_cons {a : Call} {b : List Call} : Safe (a :: b) ↔ (∀ x ∈ a.touched, Fits x.2 (a.shape x.1)) ∧ Safe b := by
  simp [Safe]

theorem safe_flatMap {n : ℕ} {f : ℕ → List Call} : Safe ((List.range n).flatMap f) ↔ ∀ k < n, Safe (f k) := by
  constructor
  · intro h k hk c hc
    exact h c (List.mem_flatMap.mpr ⟨k, List.mem_range.mpr hk, hc⟩)
  · intro h c hc
    obtain ⟨k, hk, hc⟩ := List.mem_flatMap.mp hc
    exact h k (List.mem_range.mp hk) c hc

theorem safe_ordinates {A : ℕ} {pos : ℕ → Bool} {f b : Call} (hf : ∀ x ∈ f.touched, Fits x.2 (f.shape x.1))
    (hb : ∀ x ∈ b.touched, Fits x.2 (b.shape x.1)) : Safe (ordinates A pos f b) := by
  intro c hc
  obtain ⟨nn, _, rfl⟩ := List.mem_map.mp hc
  split_ifs
  · exact hf
  · exact hb

/-- Accesses inside a loop. -/
theorem all_flatMap {n : ℕ} {f : ℕ → List Access} {P : Access → Prop} :
    (∀ x ∈ (List.range n).flatMap f, P x) ↔ ∀ k < n, ∀ x ∈ f k, P x := by
  constructor
  · intro h k hk x hx
    exact h x (List.mem_flatMap.mpr ⟨k, List.mem_range.mpr hk, hx⟩)
  · intro h x hx
    obtain ⟨k, hk, hx⟩ := List.mem_flatMap.mp hx
    exact h k (List.mem_range.mp hk) x hx

theorem all_append {a b : List Access} {P : Access → Prop} : (∀ x ∈ a ++ b, P x) ↔ (∀ x ∈ a, P x) ∧ ∀ x ∈ b, P x := by
  simp [or_imp, forall_and]

theorem isotropicCalls_safe (sphere : Bool) (N M A : ℕ) (pos : ℕ → Bool) (mm : ℕ → ℕ) (hN : 0 < N)
    (hm : ∀ i < N, mm i < M) : Safe (isotropicCalls sphere N M A pos mm) := by
  cases sphere
  · refine safe_ordinates ?_ ?_
    all_goals
      simp only [slabForwardIso, slabBackwardIso, Bool.false_eq_true, if_false, List.nil_append, all_flatMap]
      intro ii hi
      have hi : ii < N := hi
      simp [table, Fits, hi, hm ii hi]
  · rw [isotropicCalls, if_pos rfl, safe_cons]
    refine ⟨?_, safe_ordinates ?_ ?_⟩
    · simp only [halfAngleIso, all_flatMap]
      intro ii hi
      have hi : ii < N := hi
      simp [table, Fits, hi, hm ii hi]
    all_goals
      simp only [sphereForwardIso, sphereBackwardIso, Bool.false_eq_true, if_false, List.nil_append, List.append_nil,
        all_append, all_flatMap]
    · refine ⟨by simp [table, Fits, hN], fun ii hi => ?_⟩
      have hi : ii < N := hi
      simp [table, Fits, hi, hm ii hi]
    · intro ii hi
      have hi : ii < N := hi
      simp [table, Fits, hi, hm ii hi]

theorem anisotropicCalls_safe (sphere : Bool) (N M A : ℕ) (pos : ℕ → Bool) (mm : ℕ → ℕ) (hN : 0 < N)
    (hm : ∀ i < N, mm i < M) : Safe (anisotropicCalls sphere N M A pos mm) := by
  cases sphere
  · refine safe_ordinates ?_ ?_
    all_goals
      simp only [slabForwardAniso, slabBackwardAniso, Bool.false_eq_true, if_false, List.nil_append, all_flatMap]
      intro ii hi
      have hi : ii < N := hi
      simp [table, Fits, hi, hm ii hi]
  · rw [anisotropicCalls, if_pos rfl, safe_cons]
    refine ⟨?_, safe_ordinates ?_ ?_⟩
    · simp only [halfAngleAniso, all_flatMap]
      intro ii hi
      have hi : ii < N := hi
      simp [table, Fits, hi, hm ii hi]
    all_goals
      simp only [sphereForwardAniso, sphereBackwardAniso, Bool.false_eq_true, if_false, List.nil_append, List.append_nil,
        all_append, all_flatMap]
    · refine ⟨by simp [table, Fits, hN], fun ii hi => ?_⟩
      have hi : ii < N := hi
      simp [table, Fits, hi, hm ii hi]
    · intro ii hi
      have hi : ii < N := hi
      simp [table, Fits, hi, hm ii hi]

theorem offScatter_safe (N M G gg : ℕ) (hg : gg < G) (mm : ℕ → ℕ) (hm : ∀ i < N, mm i < M) (sh : Shapes)
    (hsh : sh = table [(.flux, [N, G]), (.fluxOld, [N, G]), (.mediumMap, [N]), (.xsScatter, [M, G, G]), (.offScatter, [N])]) :
    ∀ x ∈ Access.offScatter gg mm sh, Fits x.2 (sh x.1) := by
  subst hsh
  simp only [Access.offScatter, all_flatMap, all_append]
  intro ii hi
  have hi : ii < N := hi
  refine ⟨⟨by simp [table, Fits, hi], fun og ho => ?_⟩, fun k hk => ?_⟩
  · have ho' : og < G := by omega
    simp [table, Fits, hi, hm ii hi, hg, ho']
  · have hk : k < G - (gg + 1) := hk
    have hk' : gg + 1 + k < G := by omega
    simp [table, Fits, hi, hm ii hi, hg, hk']

/-- C168: one sweep of `source_iteration` over all groups and ordinates - isotropic or anisotropic scattering, slab or
sphere - stays inside its arrays whenever these have the documented shapes and every material index is below the number
of materials. -/
theorem C168_source_iteration (sphere : Bool) (N M G A : ℕ) (pos : ℕ → Bool) (mm : ℕ → ℕ) (hN : 0 < N)
    (hm : ∀ i < N, mm i < M) :
    Safe (oneSweepIso sphere N M G A pos mm) ∧ Safe (oneSweepAniso sphere N M G A pos mm) := by
  constructor
  · refine safe_flatMap.mpr fun gg hg => safe_cons.mpr ⟨?_, isotropicCalls_safe sphere N M A pos mm hN hm⟩
    exact offScatter_safe N M G gg hg mm hm _ rfl
  · refine safe_flatMap.mpr fun gg hg => safe_cons.mpr ⟨?_, anisotropicCalls_safe sphere N M A pos mm hN hm⟩
    exact offScatter_safe N M G gg hg mm hm _ rfl

/-- C168: the sweeps with a prescribed scattering source. -/
theorem C168_scatter_source (sphere : Bool) (N M A : ℕ) (pos : ℕ → Bool) (mm : ℕ → ℕ) (hN : 0 < N)
    (hm : ∀ i < N, mm i < M) : Safe (scatterSourceCalls sphere N M A pos mm) := by
  cases sphere
  · refine safe_ordinates ?_ ?_
    all_goals
      simp only [slabScatter, all_flatMap]
      intro ii hi
      have hi : ii < N := hi
      simp [table, Fits, hi, hm ii hi]
  · rw [scatterSourceCalls, if_pos rfl, safe_cons]
    refine ⟨?_, safe_ordinates ?_ ?_⟩
    · simp only [halfAngleScatter, all_flatMap]
      intro ii hi
      have hi : ii < N := hi
      simp [table, Fits, hi, hm ii hi]
    all_goals
      simp only [sphereScatter, Bool.false_eq_true, if_false, if_true, List.nil_append, all_append, all_flatMap]
    · refine ⟨by simp [table, Fits, hN], fun ii hi => ?_⟩
      have hi : ii < N := hi
      simp [table, Fits, hi, hm ii hi]
    · intro ii hi
      have hi : ii < N := hi
      simp [table, Fits, hi, hm ii hi]

/-- C168: the kernels of the power iterations. -/
theorem C168_power_iteration (N M G : ℕ) (mm : ℕ → ℕ) (hm : ∀ i < N, mm i < M) : Safe (powerCalls N M G mm) := by
  simp only [powerCalls, safe_cons]
  refine ⟨?_, ?_, ?_, ?_, ?_, fun c hc => by simp at hc⟩
  all_goals
    simp only [fissionMatProd, updateKeffMat, fissionVecProd, updateKeffVec, scatterProd, all_flatMap, all_append]
    intro ii hi
    have hi : ii < N := hi
    have hmi := hm ii hi
    refine ⟨by simp [table, Fits, hi, hmi], fun og ho => ?_⟩
    have ho : og < G := ho
  all_goals first
    | (refine ⟨fun ig hg => ?_, by simp [table, Fits, hi, ho]⟩
       have hg : ig < G := hg
       simp [table, Fits, hi, hmi, ho, hg])
    | (intro ig hg
       have hg : ig < G := hg
       simp [table, Fits, hi, hmi, ho, hg])

/-- C168: transfer matrix, total source and right-hand side of a time step, for every documented shape of the external
source (one or all angles, one or all groups). -/
theorem C168_sources (N M G A a e : ℕ) (mm : ℕ → ℕ) (hm : ∀ i < N, mm i < M) (ha : a = 1 ∨ a = A) (he : e = 1 ∨ e = G) :
    Safe (sourceCalls N M G A a e mm) := by
  simp only [sourceCalls, safe_cons]
  refine ⟨?_, ?_, ?_, fun c hc => by simp at hc⟩
  · simp only [transferMatrix, all_flatMap]
    intro mat h1 og h2 ig h3
    have h1 : mat < M := h1
    have h2 : og < G := h2
    have h3 : ig < G := h3
    simp [table, Fits, h1, h2, h3]
  · simp only [sourceTotal, all_flatMap, all_append]
    intro ii hi
    have hi : ii < N := hi
    have hmi := hm ii hi
    refine ⟨by simp [table, Fits, hi], fun og ho => ⟨fun ig hg => ?_, fun nn hn => ?_⟩⟩
    · have ho : og < G := ho
      have hg : ig < G := hg
      simp [table, Fits, hi, hmi, ho, hg]
    · have ho : og < G := ho
      have hn : nn < A := hn
      have h1 : (if a = 1 then 0 else nn) < a := by split_ifs <;> omega
      have h2 : (if e = 1 then 0 else og) < e := by split_ifs <;> omega
      simp [table, Fits, axis, hi, ho, hn, h1, h2]
  · simp only [timeRightSide, all_flatMap, all_append]
    intro ii hi
    have hi : ii < N := hi
    have hmi := hm ii hi
    refine ⟨by simp [table, Fits, hi], fun og ho => ⟨fun ig hg => ?_, fun x hx => ?_⟩⟩
    · have ho : og < G := ho
      have hg : ig < G := hg
      simp [table, Fits, hi, hmi, ho, hg]
    · have ho : og < G := ho
      obtain ⟨nn, hn, rfl⟩ := List.mem_map.mp hx
      have hn : nn < A := List.mem_range.mp hn
      simp [table, Fits, hi, ho, hn]

/-- C168: the kernels of the hybrid methods, with the coarse index that `indexing` computes for a partition of the fine
groups. -/
theorem C168_hybrid {K : Type} [Field K] (N M G C A : ℕ) (mm : ℕ → ℕ) (edges : ℕ → K) (gidxF gidxC : ℕ → ℕ)
    (hm : ∀ i < N, mm i < M) (hp : Spec.IsPartition C G gidxC) :
    Safe (hybridCalls N M G C A mm (indexing C edges gidxF gidxC).2.1) := by
  have hc : ∀ g < G, (indexing C edges gidxF gidxC).2.1 g < C := fun g hg => (C02_collided_index hp hg).1.1
  generalize (indexing C edges gidxF gidxC).2.1 = coarse at hc
  simp only [hybridCalls, safe_cons]
  refine ⟨?_, ?_, ?_, fun c hc => by simp at hc⟩
  · simp only [hybridSourceCollided, all_flatMap, all_append]
    intro ii hi
    have hi : ii < N := hi
    have hmi := hm ii hi
    refine ⟨by simp [table, Fits, hi], fun og ho ig hg => ?_⟩
    have ho : og < G := ho
    have hg : ig < G := hg
    simp [table, Fits, hi, hmi, ho, hg, hc og ho]
  · simp only [hybridSourceTotal, all_flatMap, all_append]
    intro ii hi
    have hi : ii < N := hi
    have hmi := hm ii hi
    refine ⟨⟨by simp [table, Fits, hi], fun og ho => ?_⟩, fun og ho => ⟨fun ig hg => ?_, fun x hx => ?_⟩⟩
    · have ho : og < G := ho
      simp [table, Fits, hi, ho, hc og ho]
    · have ho : og < G := ho
      have hg : ig < G := hg
      simp [table, Fits, hi, hmi, ho, hg]
    · have ho : og < G := ho
      obtain ⟨nn, hn, rfl⟩ := List.mem_map.mp hx
      have hn : nn < A := List.mem_range.mp hn
      simp [table, Fits, hi, ho, hn]
  · simp only [coarsenFlux, all_flatMap, all_append]
    intro gg hg
    have hg : gg < C := hg
    refine ⟨by simp [table, Fits, hg, Nat.lt_succ_of_lt hg], fun x hx => ?_⟩
    obtain ⟨ii, hi, rfl⟩ := List.mem_map.mp hx
    have hi : ii < N := List.mem_range.mp hi
    simp [table, Fits, hi, hg]

/-- C168: a sweep of the variable-group source iteration. -/
theorem C168_variable_source_iteration (sphere : Bool) (N M C A : ℕ) (width : ℕ → ℕ) (G : ℕ) (pos : ℕ → Bool)
    (mm : ℕ → ℕ) (hN : 0 < N) (hm : ∀ i < N, mm i < M) : Safe (variableSweep sphere N M C A width G pos mm) := by
  refine safe_flatMap.mpr fun gg hg => safe_cons.mpr ⟨?_, isotropicCalls_safe sphere N M A pos mm hN hm⟩
  simp only [variableOffScatter, all_flatMap, all_append]
  intro og ho
  have ho : og < C := ho
  refine ⟨by simp [table, Fits, ho, Nat.lt_succ_of_lt ho], ?_⟩
  split_ifs
  · simp only [all_flatMap]
    intro ii hi
    have hi : ii < N := hi
    simp [table, Fits, hi, hm ii hi, ho]
  · simp only [all_flatMap]
    intro ii hi
    have hi : ii < N := hi
    simp [table, Fits, hi, hm ii hi, ho]
  · simp

/-- C168: the anisotropic source kernels, with at least one moment. -/
theorem C168_anisotropic_sources (N M G C A L a e : ℕ) (mm coarse : ℕ → ℕ) (hm : ∀ i < N, mm i < M)
    (hc : ∀ g < G, coarse g < C) (hL : 0 < L) (ha : a = 1 ∨ a = A) (he : e = 1 ∨ e = G) :
    Safe (anisotropicSourceCalls N M G C A L a e mm coarse) := by
  simp only [anisotropicSourceCalls, safe_cons]
  refine ⟨?_, ?_, ?_, fun c hc => by simp at hc⟩
  · simp only [sourceTotalAniso, all_flatMap, all_append]
    intro ii hi
    replace hi : ii < N := hi
    have hmi := hm ii hi
    refine ⟨by simp [table, Fits, hi], fun og ho nn hn => ⟨fun ll hl => ⟨fun ig hg => ?_, ?_⟩, ?_⟩⟩
    · replace ho : og < G := ho
      replace hg : ig < G := hg
      replace hl : ll < L := hl
      split_ifs
      · simp [table, Fits, hi, hmi, ho, hg, hl]
      · simp
    · replace hl : ll < L := hl
      replace hn : nn < A := hn
      simp [table, Fits, hl, hn]
    · replace ho : og < G := ho
      replace hn : nn < A := hn
      have h1 : (if a = 1 then 0 else nn) < a := by split_ifs <;> omega
      have h2 : (if e = 1 then 0 else og) < e := by split_ifs <;> omega
      simp [table, Fits, axis, hi, ho, hn, h1, h2]
  · simp only [timeRightSideAniso, all_flatMap, all_append]
    intro ii hi
    replace hi : ii < N := hi
    have hmi := hm ii hi
    refine ⟨by simp [table, Fits, hi], fun og ho nn hn => ⟨fun ll hl => ?_, ?_⟩⟩
    · replace ho : og < G := ho
      replace hn : nn < A := hn
      replace hl : ll < L := hl
      split_ifs
      · simp only [all_flatMap, all_append]
        refine ⟨fun ig hg => ?_, by simp [table, Fits, hl, hn]⟩
        replace hg : ig < G := hg
        simp [table, Fits, hi, hmi, ho, hg, hl]
      · simp
    · replace ho : og < G := ho
      replace hn : nn < A := hn
      simp [table, Fits, hi, ho, hn]
  · simp only [hybridSourceCollidedAniso, all_flatMap, all_append]
    intro ii hi
    replace hi : ii < N := hi
    have hmi := hm ii hi
    refine ⟨by simp [table, Fits, hi], fun og ho ig hg => ?_⟩
    replace ho : og < G := ho
    replace hg : ig < G := hg
    simp [table, Fits, hi, hmi, ho, hg, hL, hc og ho]

/-- C168: the kernels of the infinite-medium solvers. -/
theorem C168_zero_dimensional (G : ℕ) : Safe (zeroDCalls G) := by
  rw [zeroDCalls, safe_cons]
  constructor
  · simp only [fission0d, all_flatMap, all_append]
    intro og ho
    replace ho : og < G := ho
    refine ⟨fun ig hg => ?_, by simp [table, Fits, ho]⟩
    replace hg : ig < G := hg
    simp [table, Fits, ho, hg]
  · intro c hc
    obtain ⟨gg, hg, rfl⟩ := List.mem_map.mp hc
    replace hg : gg < G := List.mem_range.mp hg
    simp only [offScatter0d, all_flatMap, all_append]
    refine ⟨fun og ho => ?_, fun k hk => ?_⟩
    · have ho' : og < G := by omega
      simp [table, Fits, hg, ho']
    · replace hk : k < G - (gg + 1) := hk
      have hk' : gg + 1 + k < G := by omega
      simp [table, Fits, hg, hk']

/-- C168 (violation, exact form): a known-source solve on a slab stays inside its arrays if and only if every material
index is also below the number of cells (plus one with edges): the kernel indexes a dummy array of that length by
material. -/
theorem C168_violation_known_source (edges : Bool) (N M G A : ℕ) (pos : ℕ → Bool) (mm : ℕ → ℕ) (hG : 0 < G)
    (hA : 0 < A) (hm : ∀ i < N, mm i < M) :
    Safe (knownSourceSlab edges N M G A pos mm) ↔ ∀ i < N, mm i < N + if edges then 1 else 0 := by
  constructor
  · intro h i hi
    have h0 := safe_flatMap.mp h 0 hG
    have hmem : ∀ f b : Call, (if pos 0 then f else b) ∈ ordinates A pos f b := fun f b =>
      List.mem_map.mpr ⟨0, List.mem_range.mpr hA, rfl⟩
    have h1 := h0 _ (hmem _ _)
    by_cases hp : pos 0
    · rw [if_pos hp] at h1
      have := h1 (Buf.xsScatter, [mm i])
        (List.mem_append_right _ (List.mem_flatMap.mpr ⟨i, List.mem_range.mpr hi, by simp⟩))
      simpa [table, Fits] using this
    · rw [if_neg hp] at h1
      have := h1 (Buf.xsScatter, [mm i])
        (List.mem_append_right _ (List.mem_flatMap.mpr ⟨i, List.mem_range.mpr hi, by simp⟩))
      simpa [table, Fits] using this
  · intro h
    refine safe_flatMap.mpr fun _ _ => safe_ordinates ?_ ?_
    all_goals
      simp only [slabForwardIso, slabBackwardIso, all_append, all_flatMap]
      refine ⟨by cases edges <;> simp [table, Fits, rows], fun ii hi => ?_⟩
      replace hi : ii < N := hi
      have hz := h ii hi
      cases edges
      · simp only [Bool.false_eq_true, if_false, add_zero] at hz
        simp [table, Fits, hi, hm ii hi, hz]
      · simp only [if_true] at hz
        simp [table, Fits, hi, hi.le, Nat.lt_succ_of_lt hi, hm ii hi, hz]

/-- C168 (violation): a known-source solve on a sphere with edges reads past the end of the material map before it
raises IndexError, whatever the problem. -/
theorem C168_violation_sphere_edges (N M : ℕ) (mm : ℕ → ℕ) : ¬ Safe (knownSourceSphere true N M mm) := by
  intro h
  have := (safe_cons.mp h).1 (Buf.mediumMap, [N])
    (List.mem_flatMap.mpr ⟨N, List.mem_range.mpr (by simp [rows, table]), by simp⟩)
  simp [table, Fits] at this

/-- C168 (violation): `discrete_ordinates` with `edges=1` and an initial guess of the documented length writes past the
end of its result, on slabs and on spheres; on spheres no other length of the guess helps. -/
theorem C168_violation_discrete_ordinates_edges (N M A : ℕ) (pos : ℕ → Bool) (mm : ℕ → ℕ) (hN : 0 < N) (hA : 0 < A) :
    ¬ Safe (discreteOrdinatesEdges false N N M A pos mm) ∧
    ∀ L > 0, ¬ Safe (discreteOrdinatesEdges true L N M A pos mm) := by
  have hmem : ∀ f b : Call, (if pos 0 then f else b) ∈ ordinates A pos f b := fun f b =>
    List.mem_map.mpr ⟨0, List.mem_range.mpr hA, rfl⟩
  constructor
  · intro h
    have h0 := h _ (hmem _ _)
    by_cases hp : pos 0
    · rw [if_pos hp] at h0
      have := h0 (Buf.flux, [N]) (List.mem_append_right _ (List.mem_flatMap.mpr
        ⟨N - 1, List.mem_range.mpr (by simp [rows, table]; omega), by
          simp [show N - 1 + 1 = N by omega]⟩))
      simp [table, Fits] at this
    · rw [if_neg hp] at h0
      have := h0 (Buf.flux, [N]) (List.mem_append_left _ (by simp [rows, table]))
      simp [table, Fits] at this
  · intro L hL h
    rw [discreteOrdinatesEdges, if_pos rfl, safe_cons] at h
    have h0 := h.2 _ (hmem _ _)
    by_cases hp : pos 0
    · rw [if_pos hp] at h0
      have := h0 (Buf.flux, [L]) (List.mem_append_right _ (List.mem_flatMap.mpr
        ⟨L - 1, List.mem_range.mpr (by simp [rows, table]; omega), by
          simp [show L - 1 + 1 = L by omega]⟩))
      simp [table, Fits] at this
    · rw [if_neg hp] at h0
      have := h0 (Buf.flux, [L]) (List.mem_append_left _ (by simp [rows, table]))
      simp [table, Fits] at this

/-! ### Examples -/

example := C168_source_iteration true 3 2 4 8 (fun n => decide (4 ≤ n)) (fun i => if i = 1 then 1 else 0) (by norm_num)
  (fun i _ => by split_ifs <;> omega)

example := C168_scatter_source false 3 2 8 (fun n => decide (4 ≤ n)) (fun i => if i = 1 then 1 else 0) (by norm_num)
  (fun i _ => by split_ifs <;> omega)

example := C168_power_iteration 3 2 4 (fun i => if i = 1 then 1 else 0) (fun i _ => by split_ifs <;> omega)

example := C168_sources 3 2 4 8 1 4 (fun i => if i = 1 then 1 else 0) (fun i _ => by split_ifs <;> omega)
  (Or.inl rfl) (Or.inr rfl)

example := C168_hybrid 3 2 6 3 8 (fun i => if i = 1 then 1 else 0) (fun g => (g : ℚ)) id exPart
  (fun i _ => by split_ifs <;> omega) exPart_isPartition

example := C168_anisotropic_sources 3 2 4 2 8 3 8 1 (fun i => if i = 1 then 1 else 0) (fun g => g / 2)
  (fun i _ => by split_ifs <;> omega) (fun g _ => by omega) (by norm_num) (Or.inr rfl) (Or.inl rfl)

example := C168_variable_source_iteration false 3 2 2 8 (fun _ => 2) 4 (fun n => decide (4 ≤ n))
  (fun i => if i = 1 then 1 else 0) (by norm_num) (fun i _ => by split_ifs <;> omega)

-- C168: one cell made of the second of two materials: the dummy array is read out of bounds
example : ¬ Safe (knownSourceSlab false 1 2 1 2 (fun n => decide (1 ≤ n)) (fun _ => 1)) := fun h =>
  absurd ((C168_violation_known_source false 1 2 1 2 _ (fun _ => 1) (by norm_num) (by norm_num)
    (fun _ _ => by norm_num)).mp h 0 (by norm_num)) (by norm_num)

end Discrete1.Props
