import Verif.Model.FileNames
import Mathlib.Data.Nat.Digits.Lemmas
import Mathlib.Data.Finset.Card
import Mathlib.Data.Fintype.Card
import Mathlib.Tactic.IntervalCases
import Mathlib.Tactic.Push

set_option linter.unusedSectionVars false
set_option linter.unusedSimpArgs false

/-!
# C66: fresh file names
-/

namespace Discrete1.Props

open Discrete1.Ml

/-! ### Specification: the labels in order -/

/-- The `k`-th lower-case letter (`k < 26`). -/
def letter (k : ℕ) : Char := alphabet.getD k 'a'

/-- The alphabet labels in their order: a, b, ..., z, aa, ab, ..., zz. -/
def alphaLabel (k : ℕ) : List Char :=
  if k < 26 then [letter k] else [letter (k / 26 - 1), letter (k % 26)]

/-- The number labels in their order: 1, 2, 3, ... in decimal, padded with zeros. -/
def numLabel (fill k : ℕ) : List Char := zfill fill (natStr (k + 1))

/-- The names tried, in order: the plain name, then one label after another. -/
def candidate (file fmt : List Char) (label : ℕ → List Char) : ℕ → Name
  | 0 => file ++ '.' :: fmt
  | k + 1 => file ++ label k ++ '.' :: fmt

/-! ### The search loop -/

theorem search_found {G : Type} (taken : Name → Bool) (next : G → Except PyErr (List Char × G))
    (mk : List Char → Name) (gs : ℕ → G) (lab : ℕ → List Char) (k0 : ℕ)
    (hnext : ∀ k ≤ k0, next (gs k) = .ok (lab k, gs (k + 1)))
    (htaken : ∀ k < k0, taken (mk (lab k)) = true) (hfree : taken (mk (lab k0)) = false) :
    ∀ d k fuel, k + d = k0 → d < fuel → searchLoop taken next mk fuel (gs k) = .name (mk (lab k0)) := by
  intro d
  induction d with
  | zero =>
    intro k fuel hk hf
    have : k = k0 := by omega
    subst this
    obtain ⟨f, rfl⟩ : ∃ f, fuel = f + 1 := ⟨fuel - 1, by omega⟩
    rw [searchLoop, hnext k le_rfl]
    simp only [hfree, Bool.false_eq_true, if_false]
  | succ d ih =>
    intro k fuel hk hf
    obtain ⟨f, rfl⟩ : ∃ f, fuel = f + 1 := ⟨fuel - 1, by omega⟩
    rw [searchLoop, hnext k (by omega)]
    simp only [htaken k (by omega), if_true]
    exact ih (k + 1) f (by omega) (by omega)

theorem search_raises {G : Type} (taken : Name → Bool) (next : G → Except PyErr (List Char × G))
    (mk : List Char → Name) (gs : ℕ → G) (lab : ℕ → List Char) (n : ℕ) (e : PyErr)
    (hnext : ∀ k < n, next (gs k) = .ok (lab k, gs (k + 1))) (herr : next (gs n) = .error e)
    (htaken : ∀ k < n, taken (mk (lab k)) = true) :
    ∀ d k fuel, k + d = n → d < fuel → searchLoop taken next mk fuel (gs k) = .raised e := by
  intro d
  induction d with
  | zero =>
    intro k fuel hk hf
    have : k = n := by omega
    subst this
    obtain ⟨f, rfl⟩ : ∃ f, fuel = f + 1 := ⟨fuel - 1, by omega⟩
    rw [searchLoop, herr]
  | succ d ih =>
    intro k fuel hk hf
    obtain ⟨f, rfl⟩ : ∃ f, fuel = f + 1 := ⟨fuel - 1, by omega⟩
    rw [searchLoop, hnext k (by omega)]
    simp only [htaken k (by omega), if_true]
    exact ih (k + 1) f (by omega) (by omega)

/-! ### The alphabet generator -/

/-- Its state after `k` labels. -/
def alphaSt (k : ℕ) : AlphaState :=
  if k = 0 then alphaInit
  else ⟨(k - 1) % 26 + 1, (k - 1) % 26 + 2, if (k - 1) / 26 = 0 then [] else [letter ((k - 1) / 26 - 1)],
    (k - 1) / 26⟩

theorem alphabet_length : alphabet.length = 26 := by decide

theorem alphabet_get (k : ℕ) (hk : k < 26) : alphabet[k]? = some (letter k) := by
  unfold letter
  rw [List.getD_eq_getElem?_getD, List.getElem?_eq_getElem (by rw [alphabet_length]; exact hk), Option.getD_some]

theorem alphabet_slice (k : ℕ) (hk : k < 26) : (alphabet.drop k).take 1 = [letter k] := by
  rw [List.take_one, List.head?_drop, alphabet_get k hk]; rfl

theorem alphaNext_eq (k : ℕ) (hk : k < 702) : alphaNext (alphaSt k) = .ok (alphaLabel k, alphaSt (k + 1)) := by
  rcases Nat.eq_zero_or_pos k with rfl | hpos
  · rfl
  · obtain ⟨j, rfl⟩ : ∃ j, k = j + 1 := ⟨k - 1, by omega⟩
    have hst : alphaSt (j + 1) = ⟨j % 26 + 1, j % 26 + 2, if j / 26 = 0 then [] else [letter (j / 26 - 1)], j / 26⟩ := by
      simp [alphaSt]
    have hst' : alphaSt (j + 1 + 1) = ⟨(j + 1) % 26 + 1, (j + 1) % 26 + 2,
        if (j + 1) / 26 = 0 then [] else [letter ((j + 1) / 26 - 1)], (j + 1) / 26⟩ := by
      simp [alphaSt]
    rw [hst, hst']
    unfold alphaNext
    simp only [alphabet_length]
    by_cases h25 : j % 26 = 25
    · have e1 : (j + 1) % 26 = 0 := by omega
      have e2 : (j + 1) / 26 = j / 26 + 1 := by omega
      have hl : j / 26 < 26 := by omega
      rw [if_pos (by omega), alphabet_get _ hl]
      simp only [e1, e2, Nat.add_sub_cancel]
      rw [show 1 - 0 = 1 from rfl, alphabet_slice 0 (by omega)]
      unfold alphaLabel
      rw [if_neg (by omega), e1, e2]
      simp
    · have e1 : (j + 1) % 26 = j % 26 + 1 := by omega
      have e2 : (j + 1) / 26 = j / 26 := by omega
      rw [if_neg (by omega)]
      simp only [e1, e2]
      rw [show j % 26 + 2 - (j % 26 + 1) = 1 by omega, alphabet_slice _ (by omega)]
      unfold alphaLabel
      by_cases hq : j / 26 = 0
      · have hj : j + 1 < 26 := by omega
        rw [if_pos hj, if_pos hq]
        simp only [List.nil_append]
        have hm : j % 26 = j := by omega
        rw [hm]
      · have hj : ¬ j + 1 < 26 := by omega
        rw [if_neg hj, if_neg hq, e1, e2]
        rfl

theorem alphaNext_end : alphaNext (alphaSt 702) = .error .indexError := by rfl

/-! ### Labels are distinct -/

theorem letter_injective (a b : ℕ) (ha : a < 26) (hb : b < 26) (h : letter a = letter b) : a = b := by
  have : ∀ a < 26, ∀ b < 26, letter a = letter b → a = b := by decide
  exact this a ha b hb h

theorem alphaLabel_injective (a b : ℕ) (ha : a < 702) (hb : b < 702) (h : alphaLabel a = alphaLabel b) :
    a = b := by
  unfold alphaLabel at h
  split at h <;> split at h
  · simp only [List.cons.injEq, and_true] at h
    exact letter_injective a b (by omega) (by omega) h
  · simp at h
  · simp at h
  · simp only [List.cons.injEq, and_true] at h
    have h1 := letter_injective _ _ (by omega) (by omega) h.1
    have h2 := letter_injective _ _ (by omega) (by omega) h.2
    omega

theorem digitChar_val (d : ℕ) (hd : d < 10) : (digitChar d).toNat - 48 = d := by
  have : ∀ d < 10, (digitChar d).toNat - 48 = d := by decide
  exact this d hd

/-- The number a decimal string denotes. -/
def strVal (s : List Char) : ℕ := Nat.ofDigits 10 (s.reverse.map fun c => c.toNat - 48)

theorem ofDigits_zeros (l : List ℕ) (k : ℕ) : Nat.ofDigits 10 (l ++ List.replicate k 0) = Nat.ofDigits 10 l := by
  rw [Nat.ofDigits_append]
  have : Nat.ofDigits 10 (List.replicate k 0) = 0 := by
    induction k with
    | zero => rfl
    | succ k ih => rw [List.replicate_succ, Nat.ofDigits_cons, ih]
  rw [this]; simp

theorem strVal_numLabel (fill k : ℕ) : strVal (numLabel fill k) = k + 1 := by
  unfold strVal numLabel zfill natStr
  rw [if_neg (by omega), List.reverse_append, List.reverse_reverse, List.map_append, List.reverse_replicate,
    List.map_replicate, List.map_map]
  rw [show '0'.toNat - 48 = 0 from rfl, ofDigits_zeros]
  have : (Nat.digits 10 (k + 1)).map ((fun c : Char => c.toNat - 48) ∘ digitChar) = Nat.digits 10 (k + 1) := by
    rw [List.map_congr_left (g := id)]
    · exact List.map_id _
    · intro d hd
      exact digitChar_val d (Nat.digits_lt_base (by norm_num) hd)
  rw [this, Nat.ofDigits_digits]

theorem numLabel_injective (fill a b : ℕ) (h : numLabel fill a = numLabel fill b) : a = b := by
  have h1 := strVal_numLabel fill a
  have h2 := strVal_numLabel fill b
  rw [h] at h1
  omega

theorem numLabel_ne_nil (fill k : ℕ) : numLabel fill k ≠ [] := by
  intro h
  have := strVal_numLabel fill k
  rw [h] at this
  simp [strVal] at this

theorem alphaLabel_ne_nil (k : ℕ) : alphaLabel k ≠ [] := by
  unfold alphaLabel; split <;> simp

theorem candidate_injective (file fmt : List Char) (label : ℕ → List Char) (n : ℕ)
    (hne : ∀ k < n, label k ≠ []) (hinj : ∀ a < n, ∀ b < n, label a = label b → a = b) (a b : ℕ) (ha : a ≤ n)
    (hb : b ≤ n) (h : candidate file fmt label a = candidate file fmt label b) : a = b := by
  have key : ∀ k < n, file ++ '.' :: fmt ≠ file ++ label k ++ '.' :: fmt := by
    intro k hk heq
    have := congrArg List.length heq
    simp only [List.length_append, List.length_cons] at this
    exact hne k hk (List.eq_nil_of_length_eq_zero (by omega))
  cases a with
  | zero =>
    cases b with
    | zero => rfl
    | succ b => exact absurd h (key b (by omega))
  | succ a =>
    cases b with
    | zero => exact absurd h.symm (key a (by omega))
    | succ b =>
      have h' : file ++ label a ++ '.' :: fmt = file ++ label b ++ '.' :: fmt := h
      rw [List.append_assoc, List.append_assoc] at h'
      have h2 := List.append_cancel_right (List.append_cancel_left h')
      rw [hinj a (by omega) b (by omega) h2]

theorem exists_free (file fmt : List Char) (label : ℕ → List Char) (files : Finset Name) (n : ℕ)
    (hn : files.card ≤ n)
    (hinj : ∀ a ≤ n, ∀ b ≤ n, candidate file fmt label a = candidate file fmt label b → a = b) :
    ∃ k ≤ files.card, candidate file fmt label k ∉ files ∧ ∀ j < k, candidate file fmt label j ∈ files := by
  have hex : ∃ k ≤ files.card, candidate file fmt label k ∉ files := by
    by_contra hcon
    push Not at hcon
    have hsub : (Finset.range (files.card + 1)).image (candidate file fmt label) ⊆ files := by
      intro x hx
      obtain ⟨k, hk, rfl⟩ := Finset.mem_image.mp hx
      exact hcon k (by have := Finset.mem_range.mp hk; omega)
    have hcard := Finset.card_le_card hsub
    rw [Finset.card_image_of_injOn] at hcard
    · rw [Finset.card_range] at hcard; omega
    · intro a ha b hb hab
      simp only [Finset.coe_range, Set.mem_Iio] at ha hb
      exact hinj a (by omega) b (by omega) hab
  classical
  have hmin := Nat.find_spec hex
  refine ⟨Nat.find hex, hmin.1, hmin.2, ?_⟩
  intro j hj
  by_contra hc
  exact Nat.find_min hex hj ⟨by have := hmin.1; omega, hc⟩

/-! ### The property -/

/-- What is asked: the first of the candidate names that no existing file has. -/
def IsFirstFree (file fmt : List Char) (label : ℕ → List Char) (files : Finset Name) (r : NameResult) : Prop :=
  ∃ k, r = .name (candidate file fmt label k) ∧ candidate file fmt label k ∉ files ∧
    ∀ j < k, candidate file fmt label j ∈ files

theorem fullName_nil (file fmt : List Char) : fullName file fmt [] = file ++ '.' :: fmt := by
  simp [fullName]

/-- C66 (numbers): for every finite set of files the call ends after at most one pass more than there are
files, and returns the first free name of the order plain, 1, 2, 3, ... -/
theorem C66_number (files : Finset Name) (file fmt : List Char) (fill fuel : ℕ) (hf : files.card < fuel) :
    IsFirstFree file fmt (numLabel fill) files
      (updateFileName (fun n => decide (n ∈ files)) file fmt .number fill fuel) := by
  obtain ⟨k, hk, hfree, htaken⟩ := exists_free file fmt (numLabel fill) files files.card le_rfl
    (fun a ha b hb h => candidate_injective file fmt _ files.card (fun k _ => numLabel_ne_nil fill k)
      (fun a _ b _ => numLabel_injective fill a b) a b ha hb h)
  refine ⟨k, ?_, hfree, htaken⟩
  unfold updateFileName
  cases k with
  | zero =>
    simp only [fullName_nil]
    rw [if_neg (by simpa [candidate] using hfree)]
    rfl
  | succ k =>
    have h0 := htaken 0 (by omega)
    simp only [fullName_nil]
    rw [if_pos (by simpa [candidate] using h0)]
    have := search_found (fun n => decide (n ∈ files)) (numberNext fill) (fullName file fmt) (fun k => k + 1)
      (numLabel fill) k (fun j _ => rfl)
      (fun j hj => by
        have := htaken (j + 1) (by omega)
        simpa [candidate, fullName] using this)
      (by simpa [candidate, fullName] using hfree) k 0 fuel (by omega) (by omega)
    rw [this]; rfl

/-- C66 (letters): as long as one of the 703 names plain, a, ..., z, aa, ..., zz is free (in particular with at
most 702 files) the first free one is returned.  The full property is for every finite set of files, see
`C66_violation_names_used_up`. -/
theorem C66_alphabet_partial (files : Finset Name) (file fmt : List Char) (fill fuel : ℕ) (hf : files.card < fuel)
    (hsome : ∃ k ≤ 702, candidate file fmt alphaLabel k ∉ files) :
    IsFirstFree file fmt alphaLabel files
      (updateFileName (fun n => decide (n ∈ files)) file fmt .alphabet fill fuel) := by
  classical
  obtain ⟨k, ⟨hk, hfree⟩, htaken⟩ : ∃ k, (k ≤ 702 ∧ candidate file fmt alphaLabel k ∉ files) ∧
      ∀ j < k, candidate file fmt alphaLabel j ∈ files := by
    refine ⟨Nat.find hsome, Nat.find_spec hsome, ?_⟩
    intro j hj
    by_contra hc
    exact Nat.find_min hsome hj ⟨by have := (Nat.find_spec hsome).1; omega, hc⟩
  refine ⟨k, ?_, hfree, htaken⟩
  have hkf : k < fuel := by
    have hsub : (Finset.range k).image (candidate file fmt alphaLabel) ⊆ files := by
      intro x hx
      obtain ⟨j, hj, rfl⟩ := Finset.mem_image.mp hx
      exact htaken j (Finset.mem_range.mp hj)
    have hcard := Finset.card_le_card hsub
    rw [Finset.card_image_of_injOn, Finset.card_range] at hcard
    · omega
    · intro a ha b hb hab
      simp only [Finset.coe_range, Set.mem_Iio] at ha hb
      exact candidate_injective file fmt alphaLabel 702 (fun k _ => alphaLabel_ne_nil k)
        (fun a ha b hb => alphaLabel_injective a b ha hb) a b (by omega) (by omega) hab
  unfold updateFileName
  cases k with
  | zero =>
    simp only [fullName_nil]
    rw [if_neg (by simpa [candidate] using hfree)]
    rfl
  | succ k =>
    have h0 := htaken 0 (by omega)
    simp only [fullName_nil]
    rw [if_pos (by simpa [candidate] using h0)]
    have := search_found (fun n => decide (n ∈ files)) alphaNext (fullName file fmt) alphaSt alphaLabel k
      (fun j hj => alphaNext_eq j (by omega))
      (fun j hj => by
        have := htaken (j + 1) (by omega)
        simpa [candidate, fullName] using this)
      (by simpa [candidate, fullName] using hfree) k 0 fuel (by omega) (by omega)
    rw [show alphaInit = alphaSt 0 from rfl, this]; rfl

/-- With at most 702 files one of the 703 names is free. -/
theorem C66_alphabet_few_files (files : Finset Name) (file fmt : List Char) (h : files.card ≤ 702) :
    ∃ k ≤ 702, candidate file fmt alphaLabel k ∉ files := by
  obtain ⟨k, hk, hfree, -⟩ := exists_free file fmt alphaLabel files 702 h
    (fun a ha b hb hab => candidate_injective file fmt alphaLabel 702 (fun k _ => alphaLabel_ne_nil k)
        (fun a ha b hb => alphaLabel_injective a b ha hb) a b ha hb hab)
  exact ⟨k, by omega, hfree⟩

/-- C66: once the plain name and the 702 letter names are all in use, the call raises IndexError instead of
returning a name. -/
theorem C66_violation_names_used_up (files : Finset Name) (file fmt : List Char) (fill fuel : ℕ)
    (hf : 702 < fuel) (hall : ∀ k ≤ 702, candidate file fmt alphaLabel k ∈ files) :
    updateFileName (fun n => decide (n ∈ files)) file fmt .alphabet fill fuel = .raised .indexError := by
  unfold updateFileName
  simp only [fullName_nil]
  rw [if_pos (by simpa [candidate] using hall 0 (by omega))]
  exact search_raises (fun n => decide (n ∈ files)) alphaNext (fullName file fmt) alphaSt alphaLabel 702 _
    (fun j hj => alphaNext_eq j hj) alphaNext_end
    (fun j hj => by
      have := hall (j + 1) (by omega)
      simpa [candidate, fullName] using this) 702 0 fuel (by omega) (by omega)

/-- An unknown labelling returns None for every file set. -/
theorem C66_unknown_label (taken : Name → Bool) (file fmt : List Char) (fill fuel : ℕ) :
    updateFileName taken file fmt .unknown fill fuel = .none := rfl

/-- non-vacuity: labels 26 and 701, padding, and a file set of the violation. -/
example : alphaLabel 26 = "aa".toList ∧ alphaLabel 701 = "zz".toList := by decide
example : numLabel 3 6 = "007".toList ∧ numLabel 1 122 = "123".toList := by
  constructor <;> simp [numLabel, zfill, natStr] <;> decide
example (file fmt : List Char) : ∀ k ≤ 702, candidate file fmt alphaLabel k
    ∈ (Finset.range 703).image (candidate file fmt alphaLabel) := by
  intro k hk
  exact Finset.mem_image_of_mem _ (Finset.mem_range.mpr (by omega))

end Discrete1.Props
