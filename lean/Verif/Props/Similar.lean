import Verif.Props.Stability
import Verif.Props.Critical
import Verif.Props.Setup

/-!
# Symmetries of the solvers

Mirroring the slab, changing the unit of length, scaling the sources and renumbering the materials all
change the input of the solvers in a simple way; the output changes in the matching way, exactly, whatever
the number of iterations.  One relational theorem per driver covers the four symmetries; the named
corollaries specialise it.
-/

set_option linter.unusedSectionVars false
set_option linter.unusedSimpArgs false

namespace Discrete1.Props

open Finset Discrete1.Spec Discrete1.Slab Discrete1.Tools Discrete1.MultiGroup Discrete1.Drivers Discrete1.Critical

variable {K : Type} [Field K] [LinearOrder K] [IsStrictOrderedRing K]

/-! ## Two runs side by side -/

theorem iterateE_rel {α β ε : Type} (R : α → β → Prop) {f : α → Except ε α} {f' : β → Except ε β}
    {conv : α → α → Bool} {conv' : β → β → Bool}
    (hf : ∀ a b, R a b → ∃ a' b', f a = .ok a' ∧ f' b = .ok b' ∧ R a' b')
    (hc : ∀ a b x y, R a b → R x y → conv' b y = conv a x) (n : ℕ) (a : α) (b : β) (h : R a b) :
    ∃ a' b', iterateE f conv n a = .ok a' ∧ iterateE f' conv' n b = .ok b' ∧ R a' b' := by
  induction n generalizing a b with
  | zero => exact hf a b h
  | succ n ih =>
    obtain ⟨a', b', h1, h2, h3⟩ := hf a b h
    unfold iterateE
    rw [h1, h2]
    simp only [hc a' b' a b h3 h]
    cases conv a' a with
    | true => exact ⟨a', b', rfl, rfl, h3⟩
    | false => exact ih a' b' h3

theorem loopE_rel {α β ε : Type} (R : ℕ → α → β → Prop) (n : ℕ) {f : ℕ → α → Except ε α}
    {f' : ℕ → β → Except ε β} {a : α} {b : β} (h0 : R 0 a b)
    (hf : ∀ i < n, ∀ a b, R i a b → ∃ a' b', f i a = .ok a' ∧ f' i b = .ok b' ∧ R (i + 1) a' b') :
    ∃ a' b', loopE n f a = .ok a' ∧ loopE n f' b = .ok b' ∧ R n a' b' := by
  induction n with
  | zero => exact ⟨a, b, rfl, rfl, h0⟩
  | succ n ih =>
    obtain ⟨a', b', h1, h2, h3⟩ := ih (fun i hi => hf i (Nat.lt_succ_of_lt hi))
    obtain ⟨a'', b'', h4, h5, h6⟩ := hf n (Nat.lt_succ_self n) a' b' h3
    exact ⟨a'', b'', by rw [loopE_succ, h1]; exact h4, by rw [loopE_succ, h2]; exact h5, h6⟩

/-! ## Similar problems -/

/-- The cell of the first slab that lies at cell `i` of the second: the same one, or, if the slab is
turned round, the one counted from the other end. -/
def seen (rev : Bool) (N i : ℕ) : ℕ := if rev then N - 1 - i else i

/-- An ordinate as seen in the second slab. -/
def turned (rev : Bool) (mu : K) : K := if rev then -mu else mu

/-- The face (0 left, 1 right) of the first slab that is face `t` of the second. -/
def faceOf (rev : Bool) (t : ℕ) : ℕ := if rev then 1 - t else t

/-- `f'` is `f` seen in the second slab, times `c`. -/
def Image (c : K) (rev : Bool) (N : ℕ) (f f' : ℕ → K) : Prop := ∀ i < N, f' i = c * f (seen rev N i)

/-- The same for fluxes depending on cell and group. -/
def Image2 (c : K) (rev : Bool) (N G : ℕ) (f f' : ℕ → ℕ → K) : Prop :=
  ∀ i < N, ∀ g < G, f' i g = c * f (seen rev N i) g

/-- The same for fluxes depending on cell, ordinate and group; `π n` is the ordinate of the first problem
that is ordinate `n` of the second. -/
def Image3 (c : K) (rev : Bool) (π : ℕ → ℕ) (N A G : ℕ) (f f' : ℕ → ℕ → ℕ → K) : Prop :=
  ∀ i < N, ∀ n < A, ∀ g < G, f' i n g = c * f (seen rev N i) (π n) g

/-- `π` permutes `0 .. A-1`. -/
def Permutes (A : ℕ) (π : ℕ → ℕ) : Prop :=
  (∀ n < A, π n < A) ∧ ∀ n < A, ∀ m < A, π n = π m → n = m

theorem Permutes.sum {A : ℕ} {π : ℕ → ℕ} (h : Permutes A π) (f : ℕ → K) :
    ∑ n ∈ range A, f (π n) = ∑ n ∈ range A, f n := by
  have hm : Set.MapsTo π (range A : Set ℕ) (range A : Set ℕ) := fun n hn => by
    simp only [coe_range, Set.mem_Iio] at *; exact h.1 n hn
  have hi : Set.InjOn π (range A : Set ℕ) := fun n hn m hm => by
    simp only [coe_range, Set.mem_Iio] at hn hm; exact h.2 n hn m hm
  exact sum_nbij π (fun n hn => mem_range.mpr (h.1 n (mem_range.mp hn))) hi
    (surjOn_of_injOn_of_card_le _ hm hi (le_refl _)) (fun _ _ => rfl)

/-- Geometry of two similar problems: `p'` is `p`, turned round if `rev`, with lengths multiplied by `s` and
the ordinates listed in another order (only between vacuum boundaries: with a reflecting face the order of
the sweeps matters); their convergence criteria agree on images. -/
structure SimilarProblem (c s : K) (rev : Bool) (π : ℕ → ℕ) (p p' : Problem K) : Prop where
  perm : Permutes p.angles π
  order : (∀ n < p.angles, π n = n) ∨ (p.bcL = false ∧ p.bcR = false)
  cells : p'.cells = p.cells
  groups : p'.groups = p.groups
  angles : p'.angles = p.angles
  geometry : p'.geometry = p.geometry
  dx : ∀ i < p.cells, p'.dx i = s * p.dx (seen rev p.cells i)
  angleX : ∀ n < p.angles, p'.angleX n = turned rev (p.angleX (π n))
  angleW : ∀ n < p.angles, p'.angleW n = p.angleW (π n)
  bcL : p'.bcL = if rev then p.bcR else p.bcL
  bcR : p'.bcR = if rev then p.bcL else p.bcR
  convIn : ∀ a a' b b', Image c rev p.cells a a' → Image c rev p.cells b b' →
    p'.convIn a' b' = p.convIn a b
  convOut : ∀ a a' b b', Image2 c rev p.cells p.groups a a' → Image2 c rev p.cells p.groups b b' →
    p'.convOut a' b' = p.convOut a b

/-- Cross sections of the two problems cell by cell (the material numbers may differ): those of `p'` are
those of `p` divided by `s`. -/
structure SimilarXs (s : K) (rev : Bool) (p p' : Problem K) (xsTotal xsTotal' : ℕ → ℕ → K)
    (xs xs' : ℕ → ℕ → ℕ → K) : Prop where
  total : ∀ i < p.cells, ∀ g < p.groups,
    xsTotal' (p'.mm i) g = xsTotal (p.mm (seen rev p.cells i)) g / s
  scatter : ∀ i < p.cells, ∀ g < p.groups, ∀ g' < p.groups,
    xs' (p'.mm i) g g' = xs (p.mm (seen rev p.cells i)) g g' / s

/-- Volume and boundary sources of the two problems; only their values count, not how they are stored. -/
structure SimilarSources (c s : K) (rev : Bool) (π : ℕ → ℕ) (p : Problem K) (ext ext' bnd bnd' : Arr3 K) : Prop where
  ext : ∀ i < p.cells, ∀ n < p.angles, ∀ g < p.groups,
    sourceAt ext' i n g = c / s * sourceAt ext (seen rev p.cells i) (π n) g
  bnd : ∀ t < 2, ∀ n < p.angles, ∀ g < p.groups,
    sourceAt bnd' t n g = c * sourceAt bnd (faceOf rev t) (π n) g

theorem seen_lt {rev : Bool} {N i : ℕ} (hi : i < N) : seen rev N i < N := by
  unfold seen; cases rev <;> simp <;> omega

theorem turned_ne {rev : Bool} {mu : K} (h : mu ≠ 0) : turned rev mu ≠ 0 := by
  unfold turned; cases rev <;> simp [h]

theorem leaves_turned (rev bcL bcR : Bool) (mu : K) :
    leavesReflecting (if rev then bcR else bcL) (if rev then bcL else bcR) (turned rev mu)
      ↔ leavesReflecting bcL bcR mu := by
  unfold leavesReflecting turned
  cases rev <;> simp
  exact or_comm

/-- The image of a swept solution solves the similar problem. -/
theorem swept_image {N A : ℕ} {c s : K} {rev : Bool} {π : ℕ → ℕ} {mu mu' dx dx' sigma sigma' : ℕ → K}
    {q q' psi : ℕ → ℕ → K} {bcL bcR bcL' bcR' : Bool} {bL bR bL' bR' : ℕ → K} (hs : s ≠ 0)
    (hdx0 : ∀ i < N, dx i ≠ 0)
    (hperm : Permutes A π) (hord : (∀ n < A, π n = n) ∨ (bcL = false ∧ bcR = false))
    (hne : ∀ n < A, mu n ≠ 0) (hmu : ∀ n < A, mu' n = turned rev (mu (π n)))
    (hdx : ∀ i < N, dx' i = s * dx (seen rev N i)) (hsig : ∀ i < N, sigma' i = sigma (seen rev N i) / s)
    (hq : ∀ n < A, ∀ i < N, q' n i = c / s * q (π n) (seen rev N i))
    (hbL : ∀ n < A, bL' n = c * if rev then bR (π n) else bL (π n))
    (hbR : ∀ n < A, bR' n = c * if rev then bL (π n) else bR (π n))
    (hcL : bcL' = if rev then bcR else bcL) (hcR : bcR' = if rev then bcL else bcR)
    (hbal : AllBalanced N A mu dx sigma q psi) (hin : SweptInflow N A mu bcL bcR bL bR psi) :
    AllBalanced N A mu' dx' sigma' q' (fun n i => c * psi (π n) (if rev then N - i else i)) ∧
      SweptInflow N A mu' bcL' bcR' bL' bR' (fun n i => c * psi (π n) (if rev then N - i else i)) := by
  subst hcL hcR
  constructor
  · intro n hn i hi
    have h := hbal (π n) (hperm.1 n hn) (seen rev N i) (seen_lt hi)
    have hd := hdx0 _ (seen_lt (rev := rev) hi)
    simp only
    rw [hmu n hn, hdx i hi, hsig i hi, hq n hn i hi, ← h]
    unfold turned seen at *
    cases rev with
    | false => simp only [Bool.false_eq_true, if_false] at hd ⊢; field_simp
    | true =>
      simp only [if_true] at hd ⊢
      have e1 : N - i = N - 1 - i + 1 := by omega
      have e2 : N - (i + 1) = N - 1 - i := by omega
      rw [e1, e2]; field_simp; ring
  · intro n hn
    have hpn := hperm.1 n hn
    have h := hin (π n) hpn
    have hm : A - 1 - n < A := by omega
    have hpm := hperm.1 _ hm
    rw [hmu n hn, hmu _ hm, hbL n hn, hbR n hn]
    have hi : ∀ m < A, inflow N (turned rev (mu m)) (fun i => c * psi m (if rev then N - i else i))
        = c * inflow N (mu m) (psi m) := by
      intro m hm
      unfold inflow turned
      cases rev with
      | false => simp only [Bool.false_eq_true, if_false]; split <;> rfl
      | true =>
        simp only [if_true, Nat.sub_zero, Nat.sub_self]
        rcases lt_or_gt_of_ne (hne m hm) with h | h
        · rw [if_pos (by linarith), if_neg (by linarith)]
        · rw [if_neg (by linarith), if_pos h]
    have ho : ∀ m < A, outflow N (turned rev (mu m)) (fun i => c * psi m (if rev then N - i else i))
        = c * outflow N (mu m) (psi m) := by
      intro m hm
      unfold outflow turned
      cases rev with
      | false => simp only [Bool.false_eq_true, if_false]; split <;> rfl
      | true =>
        simp only [if_true, Nat.sub_zero, Nat.sub_self]
        rcases lt_or_gt_of_ne (hne m hm) with h | h
        · rw [if_pos (by linarith), if_neg (by linarith)]
        · rw [if_neg (by linarith), if_pos h]
    rw [hi (π n) hpn, h, ho (π (A - 1 - n)) hpm, mul_add]
    congr 1
    · unfold turned
      cases rev with
      | false => simp only [Bool.false_eq_true, if_false]; split <;> rfl
      | true =>
        simp only [if_true]
        rcases lt_or_gt_of_ne (hne (π n) hpn) with h | h
        · rw [if_neg (show ¬ 0 < mu (π n) by linarith), if_pos (show 0 < -mu (π n) by linarith)]
        · rw [if_pos h, if_neg (show ¬ 0 < -mu (π n) by linarith)]
    · rcases hord with hord | hvac
      · have hl := leaves_turned rev bcL bcR (mu (A - 1 - n))
        rw [hord n hn, hord _ hm]
        by_cases hc : A - 1 - n < n ∧ leavesReflecting bcL bcR (mu (A - 1 - n))
        · rw [if_pos hc, if_pos ⟨hc.1, hl.mpr hc.2⟩]
        · rw [if_neg hc, if_neg (fun h => hc ⟨h.1, hl.mp h.2⟩), mul_zero]
      · have hnone : ∀ x : K, ¬ leavesReflecting bcL bcR x := by
          intro x hx
          unfold leavesReflecting at hx
          rw [hvac.1, hvac.2] at hx
          simp at hx
        rw [if_neg (fun h => hnone _ h.2), if_neg (fun h => hnone _ ((leaves_turned rev bcL bcR _).mp h.2)),
          mul_zero]

theorem scalarCenter_image {N A : ℕ} {c : K} {rev : Bool} {π : ℕ → ℕ} {w w' : ℕ → K} {psi : ℕ → ℕ → K}
    (hperm : Permutes A π) (hw : ∀ n < A, w' n = w (π n)) {i : ℕ} (hi : i < N) :
    scalarCenter A w' (fun n i => c * psi (π n) (if rev then N - i else i)) i
      = c * scalarCenter A w psi (seen rev N i) := by
  unfold scalarCenter
  rw [← hperm.sum (fun n => w n * ((psi n (seen rev N i) + psi n (seen rev N i + 1)) / 2)), mul_sum]
  refine sum_congr rfl fun n hn => ?_
  rw [hw n (mem_range.mp hn)]
  unfold seen
  cases rev with
  | false => simp only [Bool.false_eq_true, if_false]; ring
  | true =>
    simp only [if_true]
    have e1 : N - i = N - 1 - i + 1 := by omega
    have e2 : N - (i + 1) = N - 1 - i := by omega
    rw [e1, e2]; ring

theorem scalarCenter_congr {A : ℕ} {w : ℕ → K} {psi psi' : ℕ → ℕ → K} {i : ℕ}
    (h0 : ∀ n < A, psi n i = psi' n i) (h1 : ∀ n < A, psi n (i + 1) = psi' n (i + 1)) :
    scalarCenter A w psi i = scalarCenter A w psi' i := by
  unfold scalarCenter
  exact sum_congr rfl fun n hn => by rw [h0 n (mem_range.mp hn), h1 n (mem_range.mp hn)]

theorem similar_ok {c s : K} {rev : Bool} {π : ℕ → ℕ} {p p' : Problem K} {xsTotal xsTotal' : ℕ → ℕ → K} (hs : 0 < s)
    (hp : SimilarProblem c s rev π p p')
    (ht : ∀ i < p.cells, ∀ g < p.groups,
      xsTotal' (p'.mm i) g = xsTotal (p.mm (seen rev p.cells i)) g / s)
    (hok : ∀ g < p.groups, SlabOk p xsTotal g) : ∀ g < p'.groups, SlabOk p' xsTotal' g := by
  intro g hg
  rw [hp.groups] at hg
  refine ⟨by rw [hp.geometry]; exact (hok g hg).slab, fun n hn => ?_, fun i hi => ?_⟩
  · rw [hp.angles] at hn
    rw [hp.angleX n hn]; exact turned_ne ((hok g hg).nonzero _ (hp.perm.1 n hn))
  · rw [hp.cells] at hi
    have := (hok g hg).phys _ (seen_lt (rev := rev) hi)
    exact ⟨by rw [hp.dx i hi]; exact mul_pos hs this.1,
      by simp only; rw [ht i hi g hg]; exact div_nonneg this.2 hs.le⟩

/-- The two solvers side by side. -/
theorem similar_source_iteration (c s : K) (rev : Bool) (π : ℕ → ℕ) (p p' : Problem K) (xsTotal xsTotal' : ℕ → ℕ → K)
    (xs xs' : ℕ → ℕ → ℕ → K) (ext ext' bnd bnd' : Arr3 K) (flux flux' : ℕ → ℕ → K) (hs : 0 < s)
    (hok : ∀ g < p.groups, SlabOk p xsTotal g) (hp : SimilarProblem c s rev π p p')
    (hx : SimilarXs s rev p p' xsTotal xsTotal' xs xs')
    (hq : SimilarSources c s rev π p ext ext' bnd bnd')
    (hf : Image2 c rev p.cells p.groups flux flux') :
    ∃ out out', sourceIteration p xsTotal (.iso xs) ext bnd flux = .ok out ∧
      sourceIteration p' xsTotal' (.iso xs') ext' bnd' flux' = .ok out' ∧
      Image2 c rev p.cells p.groups out out' := by
  have hok' := similar_ok hs hp hx.total hok
  unfold sourceIteration sourceIterationIso
  refine iterateE_rel (Image2 c rev p.cells p.groups) (fun old old' hold => ?_)
    (fun a b x y hab hxy => hp.convOut a b x y hab hxy) 99 flux flux' hf
  unfold oneSweepIso
  rw [hp.groups]
  refine loopE_rel (fun _ => Image2 c rev p.cells p.groups) p.groups
    (fun i _ g _ => by simp) (fun g hg f f' hff => ?_)
  have hg' : g < p'.groups := by rw [hp.groups]; exact hg
  have slab : p.geometry = 1 := (hok g hg).slab
  have slab' : p'.geometry = 1 := (hok' g hg').slab
  have hok1 := hok g hg
  have hok2 := hok' g hg'
  have main : ∃ a b, isotropicSn p.cells p.angles p.convIn (fun m => xsTotal m g) (fun m => xs m g g)
        (offScatter p.groups f old p.mm xs g) (ext.group (bidx ext.groups g))
        (bnd.group (bidx bnd.groups g)) p.mm p.dx p.angleX p.angleW p.bcL p.bcR false
        (fun i => old i g) = .ok a ∧
      isotropicSn p.cells p.angles p'.convIn (fun m => xsTotal' m g) (fun m => xs' m g g)
        (offScatter p.groups f' old' p'.mm xs' g) (ext'.group (bidx ext'.groups g))
        (bnd'.group (bidx bnd'.groups g)) p'.mm p'.dx p'.angleX p'.angleW p'.bcL p'.bcR false
        (fun i => old' i g) = .ok b ∧ Image c rev p.cells a b := by
    unfold isotropicSn
    refine iterateE_rel (Image c rev p.cells) (fun a a' haa => ?_)
      (fun a b x y hab hxy => hp.convIn a b x y hab hxy) 99 _ _ (fun i hi => hold i hi g hg)
    obtain ⟨r, psi, hr, hbal, hin, hfill⟩ := isotropicSweep_spec (N := p.cells) (A := p.angles)
      (fun m => xsTotal m g) (fun m => xs m g g) (offScatter p.groups f old p.mm xs g)
      (ext.group (bidx ext.groups g)) (bnd.group (bidx bnd.groups g)) p.mm
      p.dx p.angleX p.angleW p.bcL p.bcR false a hok1.nonzero hok1.phys
    have hn2 := hok2.nonzero
    have hp2 := hok2.phys
    rw [hp.angles] at hn2
    rw [hp.cells] at hp2
    obtain ⟨r', psi', hr', hbal', hin', hfill'⟩ := isotropicSweep_spec (N := p.cells) (A := p.angles)
      (fun m => xsTotal' m g) (fun m => xs' m g g) (offScatter p.groups f' old' p'.mm xs' g)
      (ext'.group (bidx ext'.groups g)) (bnd'.group (bidx bnd'.groups g)) p'.mm
      p'.dx p'.angleX p'.angleW p'.bcL p'.bcR false a' hn2 hp2
    refine ⟨r, r', hr, hr', fun i hi => ?_⟩
    have himg := swept_image (c := c) (s := s) (rev := rev) (π := π) (mu' := p'.angleX) (dx' := p'.dx)
      (sigma' := fun i => xsTotal' (p'.mm i) g)
      (q' := fun n i => xs' (p'.mm i) g g * a' i
        + (ext'.group (bidx ext'.groups g)).val i (bidx (ext'.group (bidx ext'.groups g)).angles n)
        + offScatter p.groups f' old' p'.mm xs' g i)
      (bL' := fun n => (bnd'.group (bidx bnd'.groups g)).val 0
        (bidx (bnd'.group (bidx bnd'.groups g)).angles n))
      (bR' := fun n => (bnd'.group (bidx bnd'.groups g)).val 1
        (bidx (bnd'.group (bidx bnd'.groups g)).angles n)) hs.ne'
      (fun i hi => (hok1.phys i hi).1.ne') hp.perm hp.order hok1.nonzero hp.angleX hp.dx
      (fun i hi => hx.total i hi g hg)
      (fun n hn i hi => by
        have hsn := seen_lt (rev := rev) hi
        have he : (ext'.group (bidx ext'.groups g)).val i (bidx (ext'.group (bidx ext'.groups g)).angles n)
          = c / s * (ext.group (bidx ext.groups g)).val (seen rev p.cells i)
            (bidx (ext.group (bidx ext.groups g)).angles (π n)) := hq.ext i hi n hn g hg
        rw [he, hx.scatter i hi g hg g hg, haa i hi, offScatter_eq _ _ _ _ _ hg, offScatter_eq _ _ _ _ _ hg]
        rw [mul_add, mul_add, mul_sum]
        congr 1
        · congr 1; field_simp
        · refine sum_congr rfl fun g' hg'' => ?_
          have hg3 := mem_range.mp (mem_erase.mp hg'').2
          rw [hx.scatter i hi g hg g' hg3, hff i hi g' hg3, hold i hi g' hg3]
          split <;> field_simp)
      (fun n hn => by
        have := hq.bnd 0 (by norm_num) n hn g hg
        unfold faceOf at this
        cases rev <;> exact this)
      (fun n hn => by
        have := hq.bnd 1 (by norm_num) n hn g hg
        unfold faceOf at this
        cases rev <;> exact this)
      hp.bcL hp.bcR hbal hin
    have huniq := swept_unique hn2 hp2 hbal' himg.1 hin' himg.2
    have h1 := hfill i
    have h2 := hfill (seen rev p.cells i)
    have h3 := hfill' i
    simp only [Bool.false_eq_true, if_false, hi, seen_lt hi, if_true] at h2 h3
    rw [h2, h3, ← scalarCenter_image hp.perm hp.angleW hi]
    exact scalarCenter_congr (fun n hn => huniq n hn i hi.le) (fun n hn => huniq n hn (i + 1) hi)
  obtain ⟨a, b, ha, hb, hab⟩ := main
  refine ⟨putCol f g a, putCol f' g b, ?_, ?_, fun i hi g' hg' => ?_⟩
  · unfold groupStepIso; simp only [slab, if_true]; rw [ha]; rfl
  · unfold groupStepIso; simp only [slab', if_true, hp.groups, hp.cells, hp.angles]; rw [hb]; rfl
  · unfold putCol
    split
    · exact hab i hi
    · exact hff i hi g' hg'

/-! ## Anisotropic scattering -/

/-- Parity of the Legendre polynomials as tabulated by the code. -/
theorem legendre_turned (rev : Bool) (mu : K) (l : ℕ) :
    legendre (turned rev mu) l = (if rev then -1 else 1) ^ l * legendre mu l := by
  cases rev with
  | false => simp [turned]
  | true =>
    simp only [turned, if_true]
    induction l using Nat.strong_induction_on with
    | _ l ih =>
      rcases l with _ | _ | l
      · simp [legendre]
      · simp [legendre]
      · unfold legendre
        rw [ih (l + 1) (by omega), ih l (by omega)]
        rw [pow_succ (-1 : K) (l + 1), pow_succ (-1 : K) l]
        ring

/-- Scattering moments of the two problems cell by cell. -/
structure SimilarMoments (s : K) (rev : Bool) (p p' : Problem K) (L : ℕ) (xsTotal xsTotal' : ℕ → ℕ → K)
    (xs xs' : ℕ → ℕ → ℕ → ℕ → K) : Prop where
  total : ∀ i < p.cells, ∀ g < p.groups,
    xsTotal' (p'.mm i) g = xsTotal (p.mm (seen rev p.cells i)) g / s
  zeroth : ∀ i < p.cells, ∀ g < p.groups, ∀ g' < p.groups,
    xs' (p'.mm i) g g' 0 = xs (p.mm (seen rev p.cells i)) g g' 0 / s
  within : ∀ i < p.cells, ∀ g < p.groups, ∀ l < L,
    xs' (p'.mm i) g g l = xs (p.mm (seen rev p.cells i)) g g l / s

theorem similar_source_iteration_aniso (c s : K) (rev : Bool) (π : ℕ → ℕ) (p p' : Problem K) (L : ℕ)
    (xsTotal xsTotal' : ℕ → ℕ → K) (xs xs' : ℕ → ℕ → ℕ → ℕ → K) (ext ext' bnd bnd' : Arr3 K)
    (flux flux' : ℕ → ℕ → K) (hs : 0 < s)
    (hok : ∀ g < p.groups, SlabOk p xsTotal g) (hp : SimilarProblem c s rev π p p')
    (hx : SimilarMoments s rev p p' L xsTotal xsTotal' xs xs')
    (hq : SimilarSources c s rev π p ext ext' bnd bnd')
    (hf : Image2 c rev p.cells p.groups flux flux') :
    ∃ out out', sourceIteration p xsTotal (.aniso L xs) ext bnd flux = .ok out ∧
      sourceIteration p' xsTotal' (.aniso L xs') ext' bnd' flux' = .ok out' ∧
      Image2 c rev p.cells p.groups out out' := by
  have hok' := similar_ok hs hp hx.total hok
  unfold sourceIteration sourceIterationAniso
  refine iterateE_rel (Image2 c rev p.cells p.groups) (fun old old' hold => ?_)
    (fun a b x y hab hxy => hp.convOut a b x y hab hxy) 99 flux flux' hf
  unfold oneSweepAniso
  rw [hp.groups]
  refine loopE_rel (fun _ => Image2 c rev p.cells p.groups) p.groups
    (fun i _ g _ => by simp) (fun g hg f f' hff => ?_)
  have hg' : g < p'.groups := by rw [hp.groups]; exact hg
  have slab : p.geometry = 1 := (hok g hg).slab
  have slab' : p'.geometry = 1 := (hok' g hg').slab
  have hok1 := hok g hg
  have hok2 := hok' g hg'
  set P : ℕ → ℕ → K := fun l nn => legendre (p.angleX nn) l with hP
  set P' : ℕ → ℕ → K := fun l nn => legendre (p'.angleX nn) l with hP'
  set PW : ℕ → ℕ → K := fun l nn => p.angleW nn * legendre (p.angleX nn) l with hPW
  set PW' : ℕ → ℕ → K := fun l nn => p'.angleW nn * legendre (p'.angleX nn) l with hPW'
  set sgn : ℕ → K := fun l => (if rev then -1 else 1) ^ l with hsgn
  have hsq : ∀ l, sgn l * sgn l = 1 := by
    intro l; simp only [hsgn]; rw [← mul_pow]; cases rev <;> simp
  have hPP : ∀ l, ∀ n < p.angles, P' l n = sgn l * P l (π n) := fun l n hn => by
    simp only [hP', hP]; rw [hp.angleX n hn, legendre_turned]
  have hPPW : ∀ l, ∀ n < p.angles, PW' l n = sgn l * PW l (π n) := fun l n hn => by
    have := hPP l n hn
    simp only [hP', hP] at this
    simp only [hPW', hPW]
    rw [this, hp.angleW n hn]; ring
  have main : ∃ a b, anisotropicSn p.cells p.angles L p.convIn (fun m => xsTotal m g)
        (fun ii l => xs (p.mm ii) g g l * (2 * (l : K) + 1))
        (offScatter p.groups f old p.mm (fun m o i => xs m o i 0) g) (ext.group (bidx ext.groups g))
        (bnd.group (bidx bnd.groups g)) p.mm p.dx p.angleX p.angleW p.bcL p.bcR false P PW
        (fun i => old i g) = .ok a ∧
      anisotropicSn p.cells p.angles L p'.convIn (fun m => xsTotal' m g)
        (fun ii l => xs' (p'.mm ii) g g l * (2 * (l : K) + 1))
        (offScatter p.groups f' old' p'.mm (fun m o i => xs' m o i 0) g) (ext'.group (bidx ext'.groups g))
        (bnd'.group (bidx bnd'.groups g)) p'.mm p'.dx p'.angleX p'.angleW p'.bcL p'.bcR false P' PW'
        (fun i => old' i g) = .ok b ∧ Image c rev p.cells a b := by
    unfold anisotropicSn
    obtain ⟨a, b, ha, hb, hab⟩ := iterateE_rel
      (fun (a b : (ℕ → K) × (ℕ → ℕ → K)) => Image c rev p.cells a.1 b.1 ∧
        ∀ i < p.cells, ∀ l, b.2 i l = c * (sgn l * a.2 (seen rev p.cells i) l))
      (f := anisotropicSweep p.cells p.angles L (fun m => xsTotal m g)
        (fun ii l => xs (p.mm ii) g g l * (2 * (l : K) + 1))
        (offScatter p.groups f old p.mm (fun m o i => xs m o i 0) g) (ext.group (bidx ext.groups g))
        (bnd.group (bidx bnd.groups g)) p.mm p.dx p.angleX p.angleW p.bcL p.bcR false P PW)
      (f' := anisotropicSweep p.cells p.angles L (fun m => xsTotal' m g)
        (fun ii l => xs' (p'.mm ii) g g l * (2 * (l : K) + 1))
        (offScatter p.groups f' old' p'.mm (fun m o i => xs' m o i 0) g) (ext'.group (bidx ext'.groups g))
        (bnd'.group (bidx bnd'.groups g)) p'.mm p'.dx p'.angleX p'.angleW p'.bcL p'.bcR false P' PW')
      (conv := fun new old => p.convIn new.1 old.1) (conv' := fun new old => p'.convIn new.1 old.1)
      (fun a a' haa => by
        obtain ⟨r, m, psi, hr, hbal, hin, hfill, hmom⟩ := anisotropicSweep_spec (N := p.cells)
          (A := p.angles) (L := L)
          (fun m => xsTotal m g) (fun ii l => xs (p.mm ii) g g l * (2 * (l : K) + 1))
          (offScatter p.groups f old p.mm (fun m o i => xs m o i 0) g)
          (ext.group (bidx ext.groups g)) (bnd.group (bidx bnd.groups g)) p.mm
          p.dx p.angleX p.angleW p.bcL p.bcR false P PW a hok1.nonzero hok1.phys
        have hn2 := hok2.nonzero
        have hp2 := hok2.phys
        rw [hp.angles] at hn2
        rw [hp.cells] at hp2
        obtain ⟨r', m', psi', hr', hbal', hin', hfill', hmom'⟩ := anisotropicSweep_spec (N := p.cells)
          (A := p.angles) (L := L)
          (fun m => xsTotal' m g) (fun ii l => xs' (p'.mm ii) g g l * (2 * (l : K) + 1))
          (offScatter p.groups f' old' p'.mm (fun m o i => xs' m o i 0) g)
          (ext'.group (bidx ext'.groups g)) (bnd'.group (bidx bnd'.groups g)) p'.mm
          p'.dx p'.angleX p'.angleW p'.bcL p'.bcR false P' PW' a' hn2 hp2
        have himg := swept_image (c := c) (s := s) (rev := rev) (π := π) (mu' := p'.angleX) (dx' := p'.dx)
          (sigma' := fun i => xsTotal' (p'.mm i) g)
          (q' := fun n i => (∑ l ∈ range L, xs' (p'.mm i) g g l * (2 * (l : K) + 1) * a'.2 i l * P' l n)
            + (ext'.group (bidx ext'.groups g)).val i (bidx (ext'.group (bidx ext'.groups g)).angles n)
            + offScatter p.groups f' old' p'.mm (fun m o i => xs' m o i 0) g i)
          (bL' := fun n => (bnd'.group (bidx bnd'.groups g)).val 0
            (bidx (bnd'.group (bidx bnd'.groups g)).angles n))
          (bR' := fun n => (bnd'.group (bidx bnd'.groups g)).val 1
            (bidx (bnd'.group (bidx bnd'.groups g)).angles n)) hs.ne'
          (fun i hi => (hok1.phys i hi).1.ne') hp.perm hp.order hok1.nonzero hp.angleX hp.dx
          (fun i hi => hx.total i hi g hg)
          (fun n hn i hi => by
            have hsn := seen_lt (rev := rev) hi
            have he : (ext'.group (bidx ext'.groups g)).val i
                (bidx (ext'.group (bidx ext'.groups g)).angles n)
              = c / s * (ext.group (bidx ext.groups g)).val (seen rev p.cells i)
                (bidx (ext.group (bidx ext.groups g)).angles (π n)) := hq.ext i hi n hn g hg
            rw [he, offScatter_eq _ _ _ _ _ hg, offScatter_eq _ _ _ _ _ hg]
            rw [mul_add, mul_add, mul_sum, mul_sum]
            congr 1
            · congr 1
              refine sum_congr rfl fun l hl => ?_
              rw [hx.within i hi g hg l (mem_range.mp hl), haa.2 i hi l, hPP l n hn]
              have h1 := hsq l
              generalize sgn l = z at h1 ⊢
              linear_combination (c / s * (xs (p.mm (seen rev p.cells i)) g g l * (2 * (l : K) + 1)
                * a.2 (seen rev p.cells i) l * P l (π n))) * h1
            · refine sum_congr rfl fun g' hg'' => ?_
              have hg3 := mem_range.mp (mem_erase.mp hg'').2
              rw [hx.zeroth i hi g hg g' hg3, hff i hi g' hg3, hold i hi g' hg3]
              split <;> field_simp)
          (fun n hn => by
            have := hq.bnd 0 (by norm_num) n hn g hg
            unfold faceOf at this
            cases rev <;> exact this)
          (fun n hn => by
            have := hq.bnd 1 (by norm_num) n hn g hg
            unfold faceOf at this
            cases rev <;> exact this)
          hp.bcL hp.bcR hbal hin
        have huniq := swept_unique hn2 hp2 hbal' himg.1 hin' himg.2
        refine ⟨(r, m), (r', m'), hr, hr', fun i hi => ?_, fun i hi l => ?_⟩
        · have h2 := hfill (seen rev p.cells i)
          have h3 := hfill' i
          simp only [Bool.false_eq_true, if_false, hi, seen_lt hi, if_true] at h2 h3
          change r' i = c * r (seen rev p.cells i)
          rw [h2, h3, ← scalarCenter_image hp.perm hp.angleW hi]
          exact scalarCenter_congr (fun n hn => huniq n hn i hi.le) (fun n hn => huniq n hn (i + 1) hi)
        · simp only
          rw [hmom' i hi l, hmom _ (seen_lt hi) l,
            scalarCenter_congr (psi' := fun n i => c * psi (π n) (if rev then p.cells - i else i))
              (fun n hn => huniq n hn i hi.le) (fun n hn => huniq n hn (i + 1) hi)]
          have h := scalarCenter_image (c := c) (rev := rev) (w := fun n => PW l n)
            (w' := fun n => PW l (π n)) (psi := psi) hp.perm (fun _ _ => rfl) hi
          rw [mul_left_comm, ← h]
          unfold scalarCenter
          rw [mul_sum]
          refine sum_congr rfl fun n hn => ?_
          have h4 := hPPW l n (mem_range.mp hn)
          beta_reduce
          rw [h4]; ring)
      (fun a b x y hab hxy => hp.convIn _ _ _ _ hab.1 hxy.1) 99
      ((fun i => old i g), fun ii l => if l = 0 then old ii g else 0)
      ((fun i => old' i g), fun ii l => if l = 0 then old' ii g else 0)
      ⟨fun i hi => hold i hi g hg, fun i hi l => by
        by_cases h0 : l = 0
        · subst h0; simp only [if_true, hsgn, pow_zero, one_mul]; exact hold i hi g hg
        · simp only [h0, if_false, mul_zero]⟩
    refine ⟨a.1, b.1, ?_, ?_, hab.1⟩
    · rw [ha]; rfl
    · rw [hb]; rfl
  obtain ⟨a, b, ha, hb, hab⟩ := main
  refine ⟨putCol f g a, putCol f' g b, ?_, ?_, fun i hi g' hg' => ?_⟩
  · unfold groupStepAniso; simp only [slab, if_true]; rw [ha]; rfl
  · unfold groupStepAniso; simp only [slab', if_true, hp.groups, hp.cells, hp.angles]; rw [hb]; rfl
  · unfold putCol
    split
    · exact hab i hi
    · exact hff i hi g' hg'

/-! ## Time dependent problems -/

theorem similar_step {c s : K} {rev : Bool} {π : ℕ → ℕ} {p p' : Problem K} {xsV xsV' : ℕ → ℕ → K}
    {xs xs' : ℕ → ℕ → ℕ → K} {q q' psi psi' : ℕ → ℕ → ℕ → K} {bnd bnd' : Arr3 K} {flux flux' : ℕ → ℕ → K}
    (hs : 0 < s) (hok : ∀ g < p.groups, SlabOk p xsV g) (hp : SimilarProblem c s rev π p p')
    (hx : SimilarXs s rev p p' xsV xsV' xs xs')
    (hq : ∀ i < p.cells, ∀ n < p.angles, ∀ g < p.groups, q' i n g = c / s * q (seen rev p.cells i) (π n) g)
    (hb : ∀ t < 2, ∀ n < p.angles, ∀ g < p.groups,
      sourceAt bnd' t n g = c * sourceAt bnd (faceOf rev t) (π n) g)
    (hf : Image2 c rev p.cells p.groups flux flux') (h : StepData p xsV xs q bnd flux psi)
    (h' : StepData p' xsV' xs' q' bnd' flux' psi') :
    Image3 c rev π p.cells p.angles p.groups psi psi' := by
  have hok' := similar_ok hs hp hx.total hok
  obtain ⟨e, he⟩ := h
  obtain ⟨e', he'⟩ := h'
  intro i hi n hn g hg
  have hg' : g < p'.groups := by rw [hp.groups]; exact hg
  have h1 := he g hg
  have h2 := he' g hg'
  have hn2 := (hok' g hg').nonzero
  have hp2 := (hok' g hg').phys
  simp only [hp.cells, hp.angles, hp.groups] at h2 hn2 hp2
  have hbal : AllBalanced p.cells p.angles p.angleX p.dx (fun i => xsV (p.mm i) g)
      (fun n i => q i n g + ∑ g' ∈ range p.groups, xs (p.mm i) g g' * flux i g') (e g) := by
    intro n hn i hi
    have := h1.2.1 n hn i hi
    rw [h1.1 n hn i hi] at this
    exact this
  have hbal' : AllBalanced p.cells p.angles p'.angleX p'.dx (fun i => xsV' (p'.mm i) g)
      (fun n i => q' i n g + ∑ g' ∈ range p.groups, xs' (p'.mm i) g g' * flux' i g') (e' g) := by
    intro n hn i hi
    have := h2.2.1 n hn i hi
    rw [h2.1 n hn i hi] at this
    exact this
  have himg := swept_image (c := c) (s := s) (rev := rev) (π := π) (mu' := p'.angleX) (dx' := p'.dx)
    (sigma' := fun i => xsV' (p'.mm i) g)
    (q' := fun n i => q' i n g + ∑ g' ∈ range p.groups, xs' (p'.mm i) g g' * flux' i g')
    (bL' := fun n => sourceAt bnd' 0 n g) (bR' := fun n => sourceAt bnd' 1 n g) hs.ne'
    (fun i hi => ((hok g hg).phys i hi).1.ne') hp.perm hp.order (hok g hg).nonzero hp.angleX hp.dx
    (fun i hi => hx.total i hi g hg)
    (fun n hn i hi => by
      rw [hq i hi n hn g hg, mul_add, mul_sum]
      congr 1
      refine sum_congr rfl fun g' hg'' => ?_
      have hg3 := mem_range.mp hg''
      rw [hx.scatter i hi g hg g' hg3, hf i hi g' hg3]
      field_simp)
    (fun n hn => by
      have := hb 0 (by norm_num) n hn g hg
      unfold faceOf at this
      cases rev <;> exact this)
    (fun n hn => by
      have := hb 1 (by norm_num) n hn g hg
      unfold faceOf at this
      cases rev <;> exact this)
    hp.bcL hp.bcR hbal h1.2.2
  have huniq := swept_unique hn2 hp2 hbal' himg.1 h2.2.2 himg.2
  rw [h2.1 n hn i hi, h1.1 (π n) (hp.perm.1 n hn) _ (seen_lt hi), huniq n hn i hi.le, huniq n hn (i + 1) hi]
  unfold seen
  cases rev with
  | false => simp only [Bool.false_eq_true, if_false]; ring
  | true =>
    simp only [if_true]
    have e1 : p.cells - i = p.cells - 1 - i + 1 := by omega
    have e2 : p.cells - (i + 1) = p.cells - 1 - i := by omega
    rw [e1, e2]; ring

theorem similar_timedSolve {c s : K} {rev : Bool} {π : ℕ → ℕ} {p p' : Problem K} {xsV xsV' : ℕ → ℕ → K}
    {xs xs' : ℕ → ℕ → ℕ → K} {q q' : ℕ → ℕ → ℕ → K} {bnd bnd' : Arr3 K} {guess guess' : ℕ → ℕ → K}
    (hs : 0 < s) (hok : ∀ g < p.groups, SlabOk p xsV g) (hA : 1 < p.angles) (hG : 0 < p.groups)
    (hp : SimilarProblem c s rev π p p') (hx : SimilarXs s rev p p' xsV xsV' xs xs')
    (hq : ∀ i < p.cells, ∀ n < p.angles, ∀ g < p.groups, q' i n g = c / s * q (seen rev p.cells i) (π n) g)
    (hb : ∀ t < 2, ∀ n < p.angles, ∀ g < p.groups,
      sourceAt bnd' t n g = c * sourceAt bnd (faceOf rev t) (π n) g)
    (hf : Image2 c rev p.cells p.groups guess guess') :
    ∃ flux flux' psi psi', timedSolve p xsV (.iso xs) q bnd guess = .ok (flux, psi) ∧
      timedSolve p' xsV' (.iso xs') q' bnd' guess' = .ok (flux', psi') ∧
      Image2 c rev p.cells p.groups flux flux' ∧
      Image3 c rev π p.cells p.angles p.groups psi psi' := by
  have hok' := similar_ok hs hp hx.total hok
  obtain ⟨flux, psi, h1, h2, h3⟩ := timedSolve_spec p xsV xs q bnd guess hok hA hG
  obtain ⟨flux', psi', h1', h2', h3'⟩ := timedSolve_spec p' xsV' xs' q' bnd' guess' hok'
    (by rw [hp.angles]; exact hA) (by rw [hp.groups]; exact hG)
  obtain ⟨o, o', ho, ho', himg⟩ := similar_source_iteration c s rev π p p' xsV xsV' xs xs' (fullArr p q)
    (fullArr p' q') bnd bnd' guess guess' hs hok hp hx ⟨fun i hi n hn g hg => by
      unfold fullArr
      rw [hp.angles, hp.groups, sourceAt_full _ hn hg, sourceAt_full _ (hp.perm.1 n hn) hg]
      exact hq i hi n hn g hg, hb⟩ hf
  have e1 : o = flux := Except.ok.inj (ho.symm.trans h2)
  have e2 : o' = flux' := Except.ok.inj (ho'.symm.trans h2')
  subst e1 e2
  exact ⟨o, o', psi, psi', h1, h1', himg, similar_step hs hok hp hx hq hb himg h3 h3'⟩

/-- Data of two similar time dependent problems. -/
structure SimilarTimed (c s : K) (rev : Bool) (π : ℕ → ℕ) (p p' : Problem K) (xsTotal xsTotal' : ℕ → ℕ → K)
    (xs xs' : ℕ → ℕ → ℕ → K) (velocity velocity' : ℕ → K) (external external' boundary boundary' : TimeArr K)
    (steps : ℕ) (dt dt' : K) (init init' : ℕ → ℕ → ℕ → K) : Prop where
  problem : SimilarProblem c s rev π p p'
  xs : SimilarXs s rev p p' xsTotal xsTotal' xs xs'
  speed : ∀ g < p.groups, velocity' g * dt' = s * (velocity g * dt)
  sources : ∀ j < steps, SimilarSources c s rev π p (entry external j) (entry external' j) (entry boundary j)
    (entry boundary' j)
  init : Image3 c rev π p.cells p.angles p.groups init init'

theorem similar_star {s : K} {rev : Bool} {p p' : Problem K} {xsTotal xsTotal' : ℕ → ℕ → K}
    {xs xs' : ℕ → ℕ → ℕ → K} {velocity velocity' : ℕ → K} {dt dt' : K} (hs : 0 < s)
    (hx : SimilarXs s rev p p' xsTotal xsTotal' xs xs')
    (hv : ∀ g < p.groups, velocity' g * dt' = s * (velocity g * dt)) (a : K) :
    SimilarXs s rev p p' (xsStar xsTotal a velocity dt) (xsStar xsTotal' a velocity' dt') xs xs' := by
  refine ⟨fun i hi g hg => ?_, hx.scatter⟩
  unfold xsStar
  rw [hx.total i hi g hg, hv g hg, add_div]
  congr 1
  rw [div_div, mul_comm s]

theorem similar_scalarFlux {c s : K} {rev : Bool} {π : ℕ → ℕ} {p p' : Problem K} {init init' : ℕ → ℕ → ℕ → K}
    (hp : SimilarProblem c s rev π p p') (h : Image3 c rev π p.cells p.angles p.groups init init') :
    Image2 c rev p.cells p.groups (scalarFlux p init) (scalarFlux p' init') := by
  intro i hi g hg
  rw [scalarFlux_eq, scalarFlux_eq]
  unfold quadrature
  rw [hp.angles, ← hp.perm.sum (fun n => p.angleW n * init (seen rev p.cells i) n g), mul_sum]
  refine sum_congr rfl fun n hn => ?_
  have hn := mem_range.mp hn
  rw [hp.angleW n hn, h i hi n hn g hg]; ring

theorem similar_q1 {c s : K} {rev : Bool} {π : ℕ → ℕ} {p : Problem K} {ext ext' bnd bnd' : Arr3 K}
    {velocity velocity' : ℕ → K} {dt dt' : K} {psi psi' : ℕ → ℕ → ℕ → K}
    (hv : ∀ g < p.groups, velocity' g * dt' = s * (velocity g * dt))
    (hsrc : SimilarSources c s rev π p ext ext' bnd bnd')
    (hpsi : Image3 c rev π p.cells p.angles p.groups psi psi') :
    ∀ i < p.cells, ∀ n < p.angles, ∀ g < p.groups,
      qStar1 ext' velocity' dt' psi' i n g = c / s * qStar1 ext velocity dt psi (seen rev p.cells i) (π n) g := by
  intro i hi n hn g hg
  have he : ext'.val i (bidx ext'.angles n) (bidx ext'.groups g) = c / s
    * ext.val (seen rev p.cells i) (bidx ext.angles (π n)) (bidx ext.groups g) := hsrc.ext i hi n hn g hg
  unfold qStar1
  rw [he, hpsi i hi n hn g hg, hv g hg, mul_add]
  congr 1
  rw [← div_div]; ring

theorem similar_q2 {c s : K} {rev : Bool} {π : ℕ → ℕ} {p : Problem K} {ext ext' bnd bnd' : Arr3 K}
    {velocity velocity' : ℕ → K} {dt dt' : K} {psi psi' phi phi' : ℕ → ℕ → ℕ → K}
    (hv : ∀ g < p.groups, velocity' g * dt' = s * (velocity g * dt))
    (hsrc : SimilarSources c s rev π p ext ext' bnd bnd')
    (hpsi : Image3 c rev π p.cells p.angles p.groups psi psi')
    (hphi : Image3 c rev π p.cells p.angles p.groups phi phi') :
    ∀ i < p.cells, ∀ n < p.angles, ∀ g < p.groups,
      qStar2 ext' velocity' dt' psi' phi' i n g
        = c / s * qStar2 ext velocity dt psi phi (seen rev p.cells i) (π n) g := by
  intro i hi n hn g hg
  have he : ext'.val i (bidx ext'.angles n) (bidx ext'.groups g) = c / s
    * ext.val (seen rev p.cells i) (bidx ext.angles (π n)) (bidx ext.groups g) := hsrc.ext i hi n hn g hg
  unfold qStar2
  rw [mul_assoc, mul_assoc, he, hpsi i hi n hn g hg, hphi i hi n hn g hg, hv g hg, mul_sub, mul_add]
  congr 1
  · congr 1
    rw [← div_div]; ring
  · rw [show (2 : K) * (s * (velocity g * dt)) = s * (2 * (velocity g * dt)) by ring, ← div_div]; ring

theorem update_image {c : K} {rev : Bool} {N G : ℕ} {o o' : ℕ → ℕ → ℕ → K} {f f' : ℕ → ℕ → K} (k : ℕ)
    (h : ∀ j, Image2 c rev N G (o j) (o' j)) (hf : Image2 c rev N G f f') :
    ∀ j, Image2 c rev N G (Function.update o k f j) (Function.update o' k f' j) := by
  intro j
  by_cases hj : j = k
  · subst hj; rw [Function.update_self, Function.update_self]; exact hf
  · rw [Function.update_of_ne hj, Function.update_of_ne hj]; exact h j

theorem similar_backward_euler (c s : K) (rev : Bool) (π : ℕ → ℕ) (p p' : Problem K) (xsTotal xsTotal' : ℕ → ℕ → K)
    (scatter scatter' : ℕ → ℕ → ℕ → K) (fission fission' : Fission K) (velocity velocity' : ℕ → K)
    (external external' boundary boundary' : TimeArr K) (steps : ℕ) (dt dt' : K)
    (init init' : ℕ → ℕ → ℕ → K) (hs : 0 < s) (hok : TimedOk p xsTotal velocity dt) (hG : 0 < p.groups)
    (hext : Covers external steps) (hbnd : Covers boundary steps)
    (hext' : Covers external' steps) (hbnd' : Covers boundary' steps)
    (h : SimilarTimed c s rev π p p' xsTotal xsTotal'
      (fun m g g' => scatter m g g' + fissionMatrix fission m g g')
      (fun m g g' => scatter' m g g' + fissionMatrix fission' m g g') velocity velocity' external external'
      boundary boundary' steps dt dt' init init') :
    ∃ out out', backwardEuler p xsTotal (.iso scatter) fission velocity external boundary steps dt init
        = .ok out ∧
      backwardEuler p' xsTotal' (.iso scatter') fission' velocity' external' boundary' steps dt' init'
        = .ok out' ∧ ∀ j, Image2 c rev p.cells p.groups (out j) (out' j) := by
  have hokV := xsStar_ok hok (zero_le_one (α := K))
  unfold backwardEuler
  rw [transfer_iso, transfer_iso]
  obtain ⟨x, x', hx, hx', hR⟩ := loopE_rel (fun _ (a b : BEState K) =>
      Image2 c rev p.cells p.groups a.fluxOld b.fluxOld ∧
      Image3 c rev π p.cells p.angles p.groups a.psi b.psi ∧
      ∀ j, Image2 c rev p.cells p.groups (a.out j) (b.out j)) steps
    (f := beStep p xsTotal (.iso fun m g g' => scatter m g g' + fissionMatrix fission m g g') velocity
      external boundary dt)
    (f' := beStep p' xsTotal' (.iso fun m g g' => scatter' m g g' + fissionMatrix fission' m g g') velocity'
      external' boundary' dt')
    (a := ⟨scalarFlux p init, init, fun _ _ _ => 0⟩) (b := ⟨scalarFlux p' init', init', fun _ _ _ => 0⟩)
    ⟨similar_scalarFlux h.problem h.init, h.init, fun j i _ g _ => by simp⟩ (fun j hj a b hab => by
      obtain ⟨f, f', psi, psi', h1, h2, h3, h4⟩ := similar_timedSolve hs hokV hok.angles hG h.problem
        (similar_star hs h.xs h.speed 1) (similar_q1 h.speed (h.sources j hj) hab.2.1) (h.sources j hj).bnd
        hab.1
      refine ⟨⟨f, psi, Function.update a.out j f⟩, ⟨f', psi', Function.update b.out j f'⟩, ?_, ?_, h3, h4,
        update_image j hab.2.2 h3⟩
      · unfold beStep
        rw [get_ok hext hj, get_ok hbnd hj]; simp only; rw [h1]
      · unfold beStep
        rw [get_ok hext' hj, get_ok hbnd' hj]; simp only; rw [h2])
  refine ⟨x.out, x'.out, ?_, ?_, hR.2.2⟩
  · rw [hx]; rfl
  · rw [hx']; rfl

theorem similar_bdf2 (c s : K) (rev : Bool) (π : ℕ → ℕ) (p p' : Problem K) (xsTotal xsTotal' : ℕ → ℕ → K)
    (scatter scatter' : ℕ → ℕ → ℕ → K) (fission fission' : Fission K) (velocity velocity' : ℕ → K)
    (external external' boundary boundary' : TimeArr K) (steps : ℕ) (dt dt' : K)
    (init init' : ℕ → ℕ → ℕ → K) (hs : 0 < s) (hok : TimedOk p xsTotal velocity dt) (hG : 0 < p.groups)
    (hext : Covers external steps) (hbnd : Covers boundary steps)
    (hext' : Covers external' steps) (hbnd' : Covers boundary' steps)
    (h : SimilarTimed c s rev π p p' xsTotal xsTotal'
      (fun m g g' => scatter m g g' + fissionMatrix fission m g g')
      (fun m g g' => scatter' m g g' + fissionMatrix fission' m g g') velocity velocity' external external'
      boundary boundary' steps dt dt' init init') :
    ∃ out out', bdf2 p xsTotal (.iso scatter) fission velocity external boundary steps dt init
        = .ok out ∧
      bdf2 p' xsTotal' (.iso scatter') fission' velocity' external' boundary' steps dt' init'
        = .ok out' ∧ ∀ j, Image2 c rev p.cells p.groups (out j) (out' j) := by
  unfold bdf2
  rw [transfer_iso, transfer_iso]
  obtain ⟨x, x', hx, hx', hR⟩ := loopE_rel (fun j (a b : BDFState K) =>
      Image2 c rev p.cells p.groups a.fluxOld b.fluxOld ∧
      Image3 c rev π p.cells p.angles p.groups a.psi1 b.psi1 ∧
      Image3 c rev π p.cells p.angles p.groups a.psi2 b.psi2 ∧
      (∃ w : K, 0 ≤ w ∧ a.xsV = xsStar xsTotal w velocity dt ∧ b.xsV = xsStar xsTotal' w velocity' dt') ∧
      ∀ j, Image2 c rev p.cells p.groups (a.out j) (b.out j)) steps
    (f := bdfStep p xsTotal (.iso fun m g g' => scatter m g g' + fissionMatrix fission m g g') velocity
      external boundary dt)
    (f' := bdfStep p' xsTotal' (.iso fun m g g' => scatter' m g g' + fissionMatrix fission' m g g') velocity'
      external' boundary' dt')
    (a := ⟨scalarFlux p init, init, fun _ _ _ => 0, xsStar xsTotal 1 velocity dt, fun _ _ _ => 0⟩)
    (b := ⟨scalarFlux p' init', init', fun _ _ _ => 0, xsStar xsTotal' 1 velocity' dt', fun _ _ _ => 0⟩)
    ⟨similar_scalarFlux h.problem h.init, h.init, fun i _ n _ g _ => by simp,
      ⟨1, zero_le_one, rfl, rfl⟩, fun j i _ g _ => by simp⟩ (fun j hj a b hab => by
      obtain ⟨h0, hpsi1, hpsi2, ⟨w, hw, ha, hb⟩, hout⟩ := hab
      have hq : ∀ i < p.cells, ∀ n < p.angles, ∀ g < p.groups,
          (if j = 0 then qStar1 (entry external' j) velocity' dt' b.psi1
            else qStar2 (entry external' j) velocity' dt' b.psi1 b.psi2) i n g
          = c / s * (if j = 0 then qStar1 (entry external j) velocity dt a.psi1
            else qStar2 (entry external j) velocity dt a.psi1 a.psi2) (seen rev p.cells i) (π n) g := by
        split
        · exact similar_q1 h.speed (h.sources j hj) hpsi1
        · exact similar_q2 h.speed (h.sources j hj) hpsi1 hpsi2
      obtain ⟨f, f', psi, psi', h1, h2, h3, h4⟩ := similar_timedSolve hs (xsStar_ok hok hw) hok.angles hG
        h.problem (similar_star hs h.xs h.speed w) hq (h.sources j hj).bnd h0
      rw [← ha] at h1
      rw [← hb] at h2
      refine ⟨⟨f, psi, a.psi1, if j = 0 then xsStar xsTotal (3 / 2) velocity dt else a.xsV,
          Function.update a.out j f⟩,
        ⟨f', psi', b.psi1, if j = 0 then xsStar xsTotal' (3 / 2) velocity' dt' else b.xsV,
          Function.update b.out j f'⟩, ?_, ?_, h3, h4, hpsi1, ?_, update_image j hout h3⟩
      · unfold bdfStep
        rw [get_ok hext hj, get_ok hbnd hj]; simp only; rw [h1]
      · unfold bdfStep
        rw [get_ok hext' hj, get_ok hbnd' hj]; simp only; rw [h2]
      · by_cases hj0 : j = 0
        · exact ⟨3 / 2, by norm_num, by simp [hj0], by simp [hj0]⟩
        · exact ⟨w, hw, by simp [hj0, ha], by simp [hj0, hb]⟩)
  refine ⟨x.out, x'.out, ?_, ?_, hR.2.2.2.2⟩
  · rw [hx]; rfl
  · rw [hx']; rfl

/-! ## Eigenvalue problems -/

theorem powerLoop_rel (R : KState K → KState K → Prop) {f f' : KState K → Except PyErr (KState K)}
    {conv conv' : (ℕ → ℕ → K) → (ℕ → ℕ → K) → Bool}
    (hf : ∀ a b, R a b → ∃ a' b', f a = .ok a' ∧ f' b = .ok b' ∧ R a' b')
    (hc : ∀ a b x y, R a b → R x y → conv' b.flux y.flux = conv a.flux x.flux) (n count : ℕ) (a b : KState K)
    (h : R a b) : ∃ a' b' k, powerLoop f conv n count a = .ok (a', k) ∧
      powerLoop f' conv' n count b = .ok (b', k) ∧ R a' b' := by
  induction n generalizing a b count with
  | zero =>
    obtain ⟨a', b', h1, h2, h3⟩ := hf a b h
    refine ⟨a', b', count + 1, ?_, ?_, h3⟩
    · unfold powerLoop; rw [h1]
    · unfold powerLoop; rw [h2]
  | succ n ih =>
    obtain ⟨a', b', h1, h2, h3⟩ := hf a b h
    unfold powerLoop
    rw [h1, h2]
    simp only [hc a' b' a b h3 h]
    cases conv a'.flux a.flux with
    | true => exact ⟨a', b', count + 1, rfl, rfl, h3⟩
    | false => exact ih (count + 1) a' b' h3

theorem seen_permutes (rev : Bool) (N : ℕ) : Permutes N (seen rev N) := by
  refine ⟨fun n hn => seen_lt hn, fun n hn m hm h => ?_⟩
  unfold seen at h
  cases rev with
  | false => simpa using h
  | true => simp only [if_true] at h; omega

theorem similar_production {s : K} {rev : Bool} {π : ℕ → ℕ} {p p' : Problem K} {F F' : ℕ → ℕ → ℕ → K}
    {f f' : ℕ → ℕ → K} (hp : SimilarProblem 1 s rev π p p')
    (hF : ∀ i < p.cells, ∀ g < p.groups, ∀ g' < p.groups,
      F' (p'.mm i) g g' = F (p.mm (seen rev p.cells i)) g g' / s)
    (hf : Image2 1 rev p.cells p.groups f f') :
    totalProduction p' F' f' = 1 / s * totalProduction p F f := by
  unfold totalProduction
  rw [hp.cells, hp.groups, ← (seen_permutes rev p.cells).sum (fun i =>
    ∑ g ∈ range p.groups, ∑ g' ∈ range p.groups, F (p.mm i) g g' * f i g'), mul_sum]
  refine sum_congr rfl fun i hi => ?_
  rw [mul_sum]
  refine sum_congr rfl fun g hg => ?_
  rw [mul_sum]
  refine sum_congr rfl fun g' hg' => ?_
  rw [hF i (mem_range.mp hi) g (mem_range.mp hg) g' (mem_range.mp hg'),
    hf i (mem_range.mp hi) g' (mem_range.mp hg')]
  ring

theorem similar_power_iteration (s : K) (rev : Bool) (π : ℕ → ℕ) (p p' : Problem K)
    (norm norm' : (ℕ → ℕ → K) → K) (conv conv' : (ℕ → ℕ → K) → (ℕ → ℕ → K) → Bool)
    (xsTotal xsTotal' : ℕ → ℕ → K) (scatter scatter' : ℕ → ℕ → ℕ → K) (fission fission' : Fission K)
    (random random' : ℕ → ℕ → K) (hs : 0 < s) (hok : ∀ g < p.groups, SlabOk p xsTotal g)
    (hp : SimilarProblem 1 s rev π p p') (hx : SimilarXs s rev p p' xsTotal xsTotal' scatter scatter')
    (hF : ∀ i < p.cells, ∀ g < p.groups, ∀ g' < p.groups, fissionMatrix fission' (p'.mm i) g g'
      = fissionMatrix fission (p.mm (seen rev p.cells i)) g g' / s)
    (hpos : FissionNonneg p.groups fission) (hpos' : FissionNonneg p.groups fission')
    (hnorm : ∀ f f', Image2 1 rev p.cells p.groups f f' → norm' f' = norm f)
    (hconv : ∀ a a' b b', Image2 1 rev p.cells p.groups a a' → Image2 1 rev p.cells p.groups b b' →
      conv' a' b' = conv a b)
    (hrand : Image2 1 rev p.cells p.groups random random') :
    ∃ r r' n, powerIteration p norm conv xsTotal (.iso scatter) fission random = .ok (r, n) ∧
      powerIteration p' norm' conv' xsTotal' (.iso scatter') fission' random' = .ok (r', n) ∧
      Image2 1 rev p.cells p.groups r.flux r'.flux ∧ r'.keff = r.keff := by
  unfold powerIteration
  obtain ⟨r, r', n, h1, h2, h3⟩ := powerLoop_rel
    (fun a b => Image2 1 rev p.cells p.groups a.flux b.flux ∧ b.keff = a.keff)
    (f := powerStep p norm xsTotal (.iso scatter) fission)
    (f' := powerStep p' norm' xsTotal' (.iso scatter') fission') (conv := conv) (conv' := conv')
    (fun a b hab => by
      have hpos2 : FissionNonneg p'.groups fission' := by rw [hp.groups]; exact hpos'
      obtain ⟨o, o', ho, ho', himg⟩ := similar_source_iteration 1 s rev π p p' xsTotal xsTotal' scatter
        scatter' (fissionSource p.groups p.mm fission a.flux a.keff)
        (fissionSource p'.groups p'.mm fission' b.flux b.keff) zeroBoundary zeroBoundary a.flux b.flux hs
        hok hp hx ⟨fun i hi n hn g hg => by
            have e1 := fissionSource_val p fission hpos a.flux a.keff (seen rev p.cells i) (π n) g hg
            have e2 := fissionSource_val p' fission' hpos2 b.flux b.keff i n g (by rw [hp.groups]; exact hg)
            refine e2.trans (Eq.trans ?_ (congrArg (1 / s * ·) e1).symm)
            rw [hp.groups, hab.2, ← mul_div_assoc, mul_sum]
            congr 1
            refine sum_congr rfl fun g' hg' => ?_
            rw [hF i hi g hg g' (mem_range.mp hg'), hab.1 i hi g' (mem_range.mp hg')]
            ring, fun t _ n _ g _ => by simp [sourceAt, zeroBoundary]⟩ hab.1
      refine ⟨_, _, by unfold powerStep; rw [ho], by unfold powerStep; rw [ho'], ?_, ?_⟩
      · intro i hi g hg
        simp only [normalise]
        rw [hnorm o o' himg, himg i hi g hg, mul_div_assoc]
      · simp only
        rw [updateKeff_eq p fission hpos, updateKeff_eq p' fission' hpos2, hab.2,
          similar_production hp hF himg, similar_production hp hF hab.1, mul_left_comm,
          mul_div_mul_left _ _ (one_div_ne_zero hs.ne')])
    (fun a b x y hab hxy => hconv _ _ _ _ hab.1 hxy.1) 99 0 (start norm random) (start norm' random')
    ⟨fun i hi g hg => by
      simp only [start]
      rw [hnorm _ _ hrand, hrand i hi g hg, mul_div_assoc], hnorm _ _ hrand⟩
  exact ⟨r, r', n, h1, h2, h3⟩

/-! ## The criteria of the code -/

/-- The convergence criteria as coded (spatial_sweep.py:27, 379-382; multi_group.py:26, 345-349). -/
structure Standard (p : Problem K) : Prop where
  inner : p.convIn = fluxConverged p.cells (1 / 10 ^ 12)
  outer : p.convOut = fluxConverged2 p.cells p.groups (1 / 10 ^ 8)

theorem ratio_image {c : K} (hc : c ≠ 0) (x y : K) (N : K) :
    (c * x - c * y) / (c * x) / N = (x - y) / x / N := by
  rw [← mul_sub, mul_div_mul_left _ _ hc]

theorem fluxConverged_image {c : K} (hc : c ≠ 0) {rev : Bool} {N : ℕ} (tol : K) {a a' b b' : ℕ → K}
    (ha : Image c rev N a a') (hb : Image c rev N b b') :
    fluxConverged N tol a' b' = fluxConverged N tol a b := by
  unfold fluxConverged
  congr 1
  · refine decide_eq_decide.mpr ⟨fun h i hi => ?_, fun h i hi => ?_⟩
    · have h2 := h (seen rev N i) (seen_lt hi)
      rw [ha _ (seen_lt hi)] at h2
      have e : seen rev N (seen rev N i) = i := by
        unfold seen; cases rev <;> simp; omega
      rw [e] at h2
      exact fun h0 => h2 (by rw [h0, mul_zero])
    · rw [ha i hi]; exact mul_ne_zero hc (h _ (seen_lt hi))
  · have : accum N (fun i => ((a' i - b' i) / a' i / (N : K)) ^ 2)
        = accum N (fun i => ((a i - b i) / a i / (N : K)) ^ 2) := by
      rw [accum_eq_sum, accum_eq_sum,
        ← (seen_permutes rev N).sum (fun i => ((a i - b i) / a i / (N : K)) ^ 2)]
      refine sum_congr rfl fun i hi => ?_
      rw [ha i (mem_range.mp hi), hb i (mem_range.mp hi), ratio_image hc]
    rw [this]

theorem fluxConverged2_image {c : K} (hc : c ≠ 0) {rev : Bool} {N G : ℕ} (tol : K) {a a' b b' : ℕ → ℕ → K}
    (ha : Image2 c rev N G a a') (hb : Image2 c rev N G b b') :
    fluxConverged2 N G tol a' b' = fluxConverged2 N G tol a b := by
  unfold fluxConverged2
  congr 1
  · refine decide_eq_decide.mpr ⟨fun h i hi g hg => ?_, fun h i hi g hg => ?_⟩
    · have h2 := h (seen rev N i) (seen_lt hi) g hg
      rw [ha _ (seen_lt hi) g hg] at h2
      have e : seen rev N (seen rev N i) = i := by
        unfold seen; cases rev <;> simp; omega
      rw [e] at h2
      exact fun h0 => h2 (by rw [h0, mul_zero])
    · rw [ha i hi g hg]; exact mul_ne_zero hc (h _ (seen_lt hi) g hg)
  · have : accum N (fun i => accum G fun g => ((a' i g - b' i g) / a' i g / (N : K)) ^ 2)
        = accum N (fun i => accum G fun g => ((a i g - b i g) / a i g / (N : K)) ^ 2) := by
      rw [accum_eq_sum, accum_eq_sum,
        ← (seen_permutes rev N).sum (fun i => accum G fun g => ((a i g - b i g) / a i g / (N : K)) ^ 2)]
      refine sum_congr rfl fun i hi => ?_
      rw [accum_eq_sum, accum_eq_sum]
      refine sum_congr rfl fun g hg => ?_
      rw [ha i (mem_range.mp hi) g (mem_range.mp hg), hb i (mem_range.mp hi) g (mem_range.mp hg),
        ratio_image hc]
    rw [this]

end Discrete1.Props
