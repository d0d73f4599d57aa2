import Verif.Model.Tune
import Verif.Props.Splits

/-! # C140-C143: what the trials of the tuner build, and which studies run through -/

set_option linter.unusedSectionVars false
set_option linter.unusedSimpArgs false

namespace Discrete1.Props

open Discrete1.Tune

/-- A sampler answers with a value of the distribution. -/
def Draws (draw : Sampler) : Prop := ∀ (p : Param) (d : Dist), d.valid = true → d.mem (draw p d)

/-! ### Running programs -/

theorem run_bind {A B : Type} (draw : Sampler) (g : Prog A) (f : A → Prog B) (st : TrialState) :
    (g.bind f).run draw st = match g.run draw st with
      | (.ok a, st') => (f a).run draw st'
      | (.error e, st') => (.error e, st') := by
  induction g generalizing st with
  | ret a => rfl
  | raise e => rfl
  | suggest p d k ih =>
    simp only [Prog.bind, Prog.run]
    split_ifs
    · rfl
    · cases st.known p with
      | none => exact ih _ _
      | some d' =>
        simp only
        split_ifs
        · rfl
        · exact ih _ _

theorem run_bind_ok {A B : Type} {draw : Sampler} {g : Prog A} {f : A → Prog B} {st st' : TrialState} {b : B}
    (h : (g.bind f).run draw st = (.ok b, st')) :
    ∃ a st1, g.run draw st = (.ok a, st1) ∧ (f a).run draw st1 = (.ok b, st') := by
  rw [run_bind] at h
  generalize g.run draw st = r at h ⊢
  obtain ⟨r, st1⟩ := r
  cases r with
  | error e => simp at h
  | ok a => exact ⟨a, st1, rfl, h⟩

theorem run_suggest_ok {A : Type} {draw : Sampler} {p : Param} {d : Dist} {k : Value → Prog A}
    {st st' : TrialState} {a : A} (h : (Prog.suggest p d k).run draw st = (.ok a, st')) :
    d.valid = true ∧ (∀ d', st.known p = some d' → d'.compatible d = true) ∧
      (k (draw p d)).run draw ⟨Function.update st.known p (some d), (p, draw p d) :: st.params⟩ = (.ok a, st') := by
  simp only [Prog.run] at h
  split_ifs at h with h1
  · simp at h
  · refine ⟨by simpa using h1, ?_⟩
    cases hk : st.known p with
    | none => rw [hk] at h; exact ⟨fun _ h => by simp at h, h⟩
    | some d' =>
      rw [hk] at h
      simp only at h
      split_ifs at h with h2
      · simp at h
      · refine ⟨fun d'' hd => ?_, h⟩
        obtain rfl := Option.some.inj hd
        simpa using h2

/-- The parameters of a trial only grow. -/
theorem run_params {A : Type} {draw : Sampler} {g : Prog A} {st st' : TrialState} {a : A}
    (h : g.run draw st = (.ok a, st')) : ∃ new, st'.params = new ++ st.params := by
  induction g generalizing st with
  | ret a => simp only [Prog.run, Prod.mk.injEq] at h; exact ⟨[], by rw [← h.2]; rfl⟩
  | raise e => simp [Prog.run] at h
  | suggest p d k ih =>
    obtain ⟨_, _, h3⟩ := run_suggest_ok h
    obtain ⟨new, hn⟩ := ih _ h3
    exact ⟨new ++ [(p, draw p d)], by rw [hn]; simp⟩

theorem run_mem {A : Type} {draw : Sampler} {g : Prog A} {st st' : TrialState} {a : A}
    (h : g.run draw st = (.ok a, st')) {q : Param × Value} (hq : q ∈ st.params) : q ∈ st'.params := by
  obtain ⟨new, hn⟩ := run_params h
  rw [hn]
  exact List.mem_append_right _ hq

/-! ### Compatible distributions -/

theorem compatible_refl (a : Dist) : a.compatible a = true := by
  cases a <;> simp [Dist.compatible]

theorem compatible_symm {a b : Dist} (h : a.compatible b = true) : b.compatible a = true := by
  cases a <;> cases b <;> simp_all [Dist.compatible]

theorem compatible_trans {a b c : Dist} (h1 : a.compatible b = true) (h2 : b.compatible c = true) :
    a.compatible c = true := by
  cases a <;> cases b <;> cases c <;> simp_all [Dist.compatible]

/-- The study knows only distributions of the kinds `D`. -/
def Within (D : Param → Dist) (known : Study) : Prop := ∀ p d, known p = some d → (D p).compatible d = true

/-- Every request of the program has the kind `D`, and its outcome satisfies `Q`, whatever the answers. -/
def Fits {A : Type} (D : Param → Dist) (ans : Param → Dist → Value → Prop) (Q : Except PyErr A → Prop) : Prog A → Prop
  | .ret a => Q (.ok a)
  | .raise e => Q (.error e)
  | .suggest p d k => d.valid = true ∧ (D p).compatible d = true ∧
      ∀ v, d.mem v → ans p d v → Fits D ans Q (k v)

theorem run_fits {A : Type} {D : Param → Dist} {ans : Param → Dist → Value → Prop} {Q : Except PyErr A → Prop}
    {draw : Sampler} (hd : Draws draw) (ha : ∀ (p : Param) (d : Dist), ans p d (draw p d)) (g : Prog A) (hg : Fits D ans Q g)
    (st : TrialState) (hst : Within D st.known) :
    Q (g.run draw st).1 ∧ Within D (g.run draw st).2.known := by
  induction g generalizing st with
  | ret a => exact ⟨hg, hst⟩
  | raise e => exact ⟨hg, hst⟩
  | suggest p d k ih =>
    obtain ⟨h1, h2, h3⟩ := hg
    have hw : Within D (Function.update st.known p (some d)) := by
      intro p' d' h
      by_cases hp : p' = p
      · subst hp
        rw [Function.update_self] at h
        obtain rfl := Option.some.inj h
        exact h2
      · rw [Function.update_of_ne hp] at h
        exact hst p' d' h
    have key := ih _ (h3 _ (hd p d h1) (ha p d)) ⟨_, (p, draw p d) :: st.params⟩ hw
    simp only [Prog.run]
    rw [if_neg (by simp [h1])]
    cases hk : st.known p with
    | none => exact key
    | some d' =>
      simp only
      rw [if_neg (by simp [compatible_trans (compatible_symm (hst p d' hk)) h2])]
      exact key

theorem fits_bind {A B : Type} {D : Param → Dist} {ans : Param → Dist → Value → Prop} {P : Except PyErr A → Prop}
    {Q : Except PyErr B → Prop} (g : Prog A) (f : A → Prog B) (hg : Fits D ans P g)
    (hf : ∀ a, P (.ok a) → Fits D ans Q (f a)) (he : ∀ e, P (.error e) → Q (.error e)) :
    Fits D ans Q (g.bind f) := by
  induction g with
  | ret a => exact hf a hg
  | raise e => exact he e hg
  | suggest p d k ih => exact ⟨hg.1, hg.2.1, fun v hv ha => ih v (hg.2.2 v hv ha)⟩

/-- What a study knows stays of the same kind. -/
theorem run_known {A : Type} {draw : Sampler} {g : Prog A} {st st' : TrialState} {a : A}
    (h : g.run draw st = (.ok a, st')) {p : Param} {d : Dist} (hd : st.known p = some d) :
    ∃ d', st'.known p = some d' ∧ d.compatible d' = true := by
  induction g generalizing st d with
  | ret a => simp only [Prog.run, Prod.mk.injEq] at h; exact ⟨d, by rw [← h.2]; exact hd, compatible_refl d⟩
  | raise e => simp [Prog.run] at h
  | suggest p' d' k ih =>
    obtain ⟨_, h2, h3⟩ := run_suggest_ok h
    by_cases hp : p = p'
    · subst hp
      obtain ⟨d'', g1, g2⟩ := ih _ h3 (d := d') (Function.update_self _ _ _)
      exact ⟨d'', g1, compatible_trans (h2 d hd) g2⟩
    · exact ih _ h3 (by rw [← hd]; exact Function.update_of_ne hp _ _)

/-! ### Typed suggestions -/

section
variable {A : Type} {draw : Sampler} {st st' : TrialState} {a : A} {p : Param}

theorem suggestNat_ok (hd : Draws draw) {l : List ℕ} {k : ℕ → Prog A}
    (h : (suggestNat p l k).run draw st = (.ok a, st')) :
    ∃ n ∈ l, ∃ st1, (k n).run draw st1 = (.ok a, st') ∧ st1.params = (p, .nat n) :: st.params ∧
      st1.known = Function.update st.known p (some (.categorical (l.map .nat))) := by
  obtain ⟨h1, _, h3⟩ := run_suggest_ok h
  have := hd p _ h1
  obtain ⟨n, hn, he⟩ := List.mem_map.mp this
  rw [← he] at h3
  exact ⟨n, hn, _, h3, rfl, rfl⟩

theorem suggestStr_ok (hd : Draws draw) {l : List String} {k : String → Prog A}
    (h : (suggestStr p l k).run draw st = (.ok a, st')) :
    ∃ n ∈ l, ∃ st1, (k n).run draw st1 = (.ok a, st') ∧ st1.params = (p, .str n) :: st.params ∧
      st1.known = Function.update st.known p (some (.categorical (l.map .str))) := by
  obtain ⟨h1, _, h3⟩ := run_suggest_ok h
  have := hd p _ h1
  obtain ⟨n, hn, he⟩ := List.mem_map.mp this
  rw [← he] at h3
  exact ⟨n, hn, _, h3, rfl, rfl⟩

theorem suggestReal_ok (hd : Draws draw) {l : List ℚ} {k : ℚ → Prog A}
    (h : (suggestReal p l k).run draw st = (.ok a, st')) :
    ∃ n ∈ l, ∃ st1, (k n).run draw st1 = (.ok a, st') ∧ st1.params = (p, .real n) :: st.params ∧
      st1.known = Function.update st.known p (some (.categorical (l.map .real))) := by
  obtain ⟨h1, _, h3⟩ := run_suggest_ok h
  have := hd p _ h1
  obtain ⟨n, hn, he⟩ := List.mem_map.mp this
  rw [← he] at h3
  exact ⟨n, hn, _, h3, rfl, rfl⟩

theorem suggestInt_ok (hd : Draws draw) {lo hi : ℤ} {k : ℤ → Prog A}
    (h : (suggestInt p lo hi k).run draw st = (.ok a, st')) :
    ∃ n, lo ≤ n ∧ n ≤ hi ∧ ∃ st1, (k n).run draw st1 = (.ok a, st') ∧ st1.params = (p, .int n) :: st.params ∧
      st1.known = Function.update st.known p (some (.int lo hi)) := by
  obtain ⟨h1, _, h3⟩ := run_suggest_ok h
  obtain ⟨n, he, h4, h5⟩ := hd p _ h1
  rw [he] at h3
  exact ⟨n, h4, h5, _, h3, rfl, rfl⟩

theorem suggestFloat_ok (hd : Draws draw) {lo hi : ℚ} {k : ℚ → Prog A}
    (h : (suggestFloat p lo hi k).run draw st = (.ok a, st')) :
    ∃ n, lo ≤ n ∧ n ≤ hi ∧ ∃ st1, (k n).run draw st1 = (.ok a, st') ∧ st1.params = (p, .real n) :: st.params ∧
      st1.known = Function.update st.known p (some (.float lo hi)) := by
  obtain ⟨h1, _, h3⟩ := run_suggest_ok h
  obtain ⟨n, he, h4, h5⟩ := hd p _ h1
  rw [he] at h3
  exact ⟨n, h4, h5, _, h3, rfl, rfl⟩

end

/-! ### The networks -/

/-- The layers of a subnetwork with the hidden layers `(nodes, activation, dropout rate)`: every hidden layer is a
linear map, its activation and - for a positive rate - a dropout; a linear map to the latent size ends it. -/
def built : List (ℕ × String × ℚ) → ℕ → ℕ → List Layer
  | [], inDim, out => [.linear inDim out]
  | (n, name, rate) :: rest, inDim, out =>
    .linear inDim n :: .activation name :: ((if 0 < rate then [.dropout rate] else []) ++ built rest n out)

/-- The reported parameters of hidden layer `j` (counted from one). -/
def Reported (params : List (Param × Value)) (side : Side) (j n : ℕ) (name : String) (rate : ℚ) : Prop :=
  (Param.layerNodes side j, Value.nat n) ∈ params ∧ (Param.layerActivation side j, Value.str name) ∈ params ∧
    (Param.layerDropout side j, Value.real rate) ∈ params

theorem hiddenTail_ok {draw : Sampler} (hd : Draws draw) {t : Torch} {s : Space} {side : Side} {i : ℕ}
    {k : List Layer → Prog (List Layer)} {st st' : TrialState} {L : List Layer}
    (h : (hiddenTail t s side i k).run draw st = (.ok L, st')) :
    ∃ name ∈ s.activations, ∃ rate ∈ s.dropout, ∃ st1, (k (.activation name ::
        (if 0 < rate then [.dropout rate] else []))).run draw st1 = (.ok L, st') ∧
      st1.params = (Param.layerDropout side (i + 1), .real rate) ::
        (Param.layerActivation side (i + 1), .str name) :: st.params := by
  obtain ⟨name, hn, st1, h1, e1, _⟩ := suggestStr_ok hd h
  split_ifs at h1 with hk
  · simp [Prog.run] at h1
  obtain ⟨rate, hr, st2, h2, e2, _⟩ := suggestReal_ok hd h1
  refine ⟨name, hn, rate, hr, st2, ?_, by rw [e2, e1]⟩
  split_ifs at h2 with h3 h4
  · simp [Prog.run] at h2
  · rw [if_pos h3]; exact h2
  · rw [if_neg h3]; exact h2

theorem nnLayers_ok {draw : Sampler} (hd : Draws draw) {t : Torch} {s : Space} {side : Side} {o : ℕ} (todo : ℕ) :
    ∀ {i inDim : ℕ} {layers : List Layer} {st st' : TrialState} {L : List Layer},
    (nnLayers t s side o todo i inDim layers).run draw st = (.ok L, st') →
    ∃ hidden : List (ℕ × String × ℚ), hidden.length = todo ∧ L = layers ++ built hidden inDim o ∧
      (∀ h ∈ hidden, h.1 ∈ s.nodes ∧ h.2.1 ∈ s.activations ∧ h.2.2 ∈ s.dropout) ∧
      ∀ j n name rate, hidden[j]? = some (n, name, rate) → Reported st'.params side (i + j + 1) n name rate := by
  induction todo with
  | zero =>
    intro i inDim layers st st' L h
    simp only [nnLayers, Prog.run, Prod.mk.injEq, Except.ok.injEq] at h
    exact ⟨[], rfl, by rw [← h.1]; rfl, by simp, by simp⟩
  | succ todo ih =>
    intro i inDim layers st st' L h
    obtain ⟨n, hn, st1, h1, e1, _⟩ := suggestNat_ok hd h
    obtain ⟨name, hname, rate, hrate, st2, h2, e2⟩ := hiddenTail_ok hd h1
    obtain ⟨hidden, g1, g2, g3, g4⟩ := ih h2
    refine ⟨(n, name, rate) :: hidden, by simp [g1], ?_, ?_, ?_⟩
    · rw [g2]; simp [built]
    · intro x hx
      rcases List.mem_cons.mp hx with rfl | hx
      · exact ⟨hn, hname, hrate⟩
      · exact g3 x hx
    · intro j n' name' rate' hj
      cases j with
      | zero =>
        simp only [List.getElem?_cons_zero, Option.some.injEq, Prod.mk.injEq] at hj
        obtain ⟨rfl, rfl, rfl⟩ := hj
        refine ⟨run_mem h2 ?_, run_mem h2 ?_, run_mem h2 ?_⟩ <;> rw [e2, e1] <;> simp
      | succ j =>
        rw [List.getElem?_cons_succ] at hj
        have := g4 j n' name' rate' hj
        rw [show i + (j + 1) + 1 = i + 1 + j + 1 by omega]
        exact this

/-- A subnetwork as its reported parameters describe it. -/
def Describes (params : List (Param × Value)) (s : Space) (side : Side) (inDim latent : ℕ) (L : List Layer) : Prop :=
  ∃ hidden : List (ℕ × String × ℚ), (Param.numLayers side, Value.int hidden.length) ∈ params ∧
    1 ≤ hidden.length ∧ hidden.length ≤ (match side with | .branch => s.maxBLayers | .trunk => s.maxTLayers) ∧
    (∀ h ∈ hidden, h.1 ∈ s.nodes ∧ h.2.1 ∈ s.activations ∧ h.2.2 ∈ s.dropout) ∧
    (∀ j n name rate, hidden[j]? = some (n, name, rate) → Reported params side (j + 1) n name rate) ∧
    L = built hidden inDim latent

theorem Describes.grow {params params' : List (Param × Value)} {s : Space} {side : Side} {inDim latent : ℕ}
    {L : List Layer} (h : Describes params s side inDim latent L) (hp : ∀ q ∈ params, q ∈ params') :
    Describes params' s side inDim latent L := by
  obtain ⟨hidden, h1, h2, h3, h4, h5, h6⟩ := h
  exact ⟨hidden, hp _ h1, h2, h3, h4, fun j n name rate hj =>
    ⟨hp _ (h5 j n name rate hj).1, hp _ (h5 j n name rate hj).2.1, hp _ (h5 j n name rate hj).2.2⟩, h6⟩

theorem initNnModel_ok {draw : Sampler} (hd : Draws draw) {t : Torch} {s : Space} {side : Side} {inDim o : ℕ}
    {st st' : TrialState} {L : List Layer} (h : (initNnModel t s inDim o side).run draw st = (.ok L, st')) :
    Describes st'.params s side inDim o L := by
  obtain ⟨n, h1, h2, st1, h3, e1, _⟩ := suggestInt_ok hd h
  obtain ⟨hidden, g1, g2, g3, g4⟩ := nnLayers_ok hd _ h3
  have hn : (hidden.length : ℤ) = n := by rw [g1]; omega
  refine ⟨hidden, ?_, by omega, ?_, g3, fun j n name rate hj => ?_, by simpa using g2⟩
  · rw [hn]
    exact run_mem h3 (by rw [e1]; simp)
  · have hle : hidden.length ≤ s.maxLayers side := by omega
    cases side <;> exact hle
  · have := g4 j n name rate hj
    rwa [Nat.zero_add] at this

theorem initOnetModel_ok {draw : Sampler} (hd : Draws draw) {t : Torch} {s : Space} {fs ls os : ℕ}
    {st st' : TrialState} {net : Onet} (h : (initOnetModel t s fs ls os).run draw st = (.ok net, st')) :
    (Param.latent, Value.nat net.latent) ∈ st'.params ∧ net.out = os ∧
      Describes st'.params s .branch fs net.latent net.branch ∧
      Describes st'.params s .trunk ls net.latent net.trunk := by
  obtain ⟨o, _, st1, h1, e1, _⟩ := suggestNat_ok hd h
  obtain ⟨b, st2, h2, h3⟩ := run_bind_ok h1
  obtain ⟨tr, st3, h4, h5⟩ := run_bind_ok h3
  simp only [Prog.run, Prod.mk.injEq, Except.ok.injEq] at h5
  obtain ⟨rfl, rfl⟩ := h5
  exact ⟨run_mem h4 (run_mem h2 (by rw [e1]; simp)), rfl, (initNnModel_ok hd h2).grow fun q hq => run_mem h4 hq,
    initNnModel_ok hd h4⟩

/-! ### Search spaces that can be searched -/

/-- A search space every request of which can be answered and every answer of which `torch` accepts. -/
structure SpaceOk (t : Torch) (s : Space) : Prop where
  layers : ∀ side, 1 ≤ s.maxLayers side
  nodes : s.nodes ≠ []
  activations : s.activations ≠ [] ∧ ∀ a ∈ s.activations, t.activation a = true
  dropout : s.dropout ≠ [] ∧ ∀ r ∈ s.dropout, r ≤ 1
  epochs : s.nEpochs ≠ []
  batch : s.batchSize ≠ []
  optimizer : s.optimizer ≠ [] ∧ ∀ a ∈ s.optimizer, t.optimizer a = true
  learningRate : s.learningRate ≠ [] ∧ ∀ r ∈ s.learningRate, 0 ≤ r
  weightDecay : s.weightDecay ≠ [] ∧ ∀ r ∈ s.weightDecay, 0 ≤ r
  loss : s.lossFunctions ≠ [] ∧ ∀ a ∈ s.lossFunctions, t.loss a = true
  modes : s.schedMode ≠ [] ∧ ∀ m, some m ∈ s.schedMode → m = "min" ∨ m = "max"

/-- The ranges of the scheduler: ordered, with factors below one. -/
structure RangesOk (s : Space) : Prop where
  factor : s.schedFactor.1 ≤ s.schedFactor.2 ∧ s.schedFactor.2 < 1
  patience : s.schedPatience.1 ≤ s.schedPatience.2
  cooldown : s.schedCooldown.1 ≤ s.schedCooldown.2

/-- The kind of distribution every name has, with or without schedulers. -/
def kindOf (s : Space) (sched : Bool) : Param → Dist
  | .numLayers side => .int 1 (s.maxLayers side)
  | .layerNodes _ _ => .categorical (s.nodes.map .nat)
  | .layerActivation _ _ => .categorical (s.activations.map .str)
  | .layerDropout _ _ => .categorical (s.dropout.map .real)
  | .latent => .categorical (s.nodes.map .nat)
  | .optimizer => .categorical (s.optimizer.map .str)
  | .learningRate => .categorical (s.learningRate.map .real)
  | .weightDecay => .categorical (s.weightDecay.map .real)
  | .schedMode => .categorical (s.schedMode.map modeValue)
  | .schedFactor => if sched then .float s.schedFactor.1 s.schedFactor.2 else .categorical [.none]
  | .schedPatience => if sched then .int s.schedPatience.1 s.schedPatience.2 else .categorical [.none]
  | .schedCooldown => if sched then .int s.schedCooldown.1 s.schedCooldown.2 else .categorical [.none]
  | .lossFunction => .categorical (s.lossFunctions.map .str)
  | .nEpochs => .categorical (s.nEpochs.map .nat)
  | .batchSize => .categorical (s.batchSize.map .nat)

section
variable {A : Type} {D : Param → Dist} {ans : Param → Dist → Value → Prop} {Q : Except PyErr A → Prop} {p : Param}

theorem fits_nat {l : List ℕ} {k : ℕ → Prog A} (hD : D p = .categorical (l.map .nat)) (hl : l ≠ [])
    (hk : ∀ n ∈ l, Fits D ans Q (k n)) : Fits D ans Q (suggestNat p l k) := by
  refine ⟨by simpa [Dist.valid] using hl, by rw [hD]; exact compatible_refl _, fun v hv _ => ?_⟩
  obtain ⟨n, hn, rfl⟩ := List.mem_map.mp hv
  exact hk n hn

theorem fits_str {l : List String} {k : String → Prog A} (hD : D p = .categorical (l.map .str)) (hl : l ≠ [])
    (hk : ∀ n ∈ l, Fits D ans Q (k n)) : Fits D ans Q (suggestStr p l k) := by
  refine ⟨by simpa [Dist.valid] using hl, by rw [hD]; exact compatible_refl _, fun v hv _ => ?_⟩
  obtain ⟨n, hn, rfl⟩ := List.mem_map.mp hv
  exact hk n hn

theorem fits_real {l : List ℚ} {k : ℚ → Prog A} (hD : D p = .categorical (l.map .real)) (hl : l ≠ [])
    (hk : ∀ n ∈ l, Fits D ans Q (k n)) : Fits D ans Q (suggestReal p l k) := by
  refine ⟨by simpa [Dist.valid] using hl, by rw [hD]; exact compatible_refl _, fun v hv _ => ?_⟩
  obtain ⟨n, hn, rfl⟩ := List.mem_map.mp hv
  exact hk n hn

theorem fits_int {lo hi : ℤ} {k : ℤ → Prog A} (hD : (D p).compatible (.int lo hi) = true) (hl : lo ≤ hi)
    (hk : ∀ n, lo ≤ n → n ≤ hi → Fits D ans Q (k n)) : Fits D ans Q (suggestInt p lo hi k) := by
  refine ⟨by simpa [Dist.valid] using hl, hD, fun v hv _ => ?_⟩
  obtain ⟨n, rfl, h1, h2⟩ := hv
  exact hk n h1 h2

theorem fits_float {lo hi : ℚ} {k : ℚ → Prog A} (hD : (D p).compatible (.float lo hi) = true) (hl : lo ≤ hi)
    (hk : ∀ n, lo ≤ n → n ≤ hi → ans p (.float lo hi) (.real n) → Fits D ans Q (k n)) :
    Fits D ans Q (suggestFloat p lo hi k) := by
  refine ⟨by simpa [Dist.valid] using hl, hD, fun v hv ha => ?_⟩
  obtain ⟨n, rfl, h1, h2⟩ := hv
  exact hk n h1 h2 ha

end

/-- The outcome is not an error. -/
def Succeeds {A : Type} (r : Except PyErr A) : Prop := ∃ a, r = .ok a

theorem not_succeeds_error {A B : Type} {e : PyErr} (h : Succeeds (Except.error e : Except PyErr A)) :
    Succeeds (Except.error e : Except PyErr B) := by
  obtain ⟨a, ha⟩ := h
  cases ha

section
variable {t : Torch} {s : Space} (ok : SpaceOk t s) {sched : Bool} {ans : Param → Dist → Value → Prop}
include ok

theorem fits_hiddenTail {Q : Except PyErr (List Layer) → Prop} {side : Side} {i : ℕ}
    {k : List Layer → Prog (List Layer)} (hk : ∀ tail, Fits (kindOf s sched) ans Q (k tail)) :
    Fits (kindOf s sched) ans Q (hiddenTail t s side i k) := by
  refine fits_str rfl ok.activations.1 fun name hn => ?_
  rw [if_neg (by simp [ok.activations.2 name hn])]
  refine fits_real rfl ok.dropout.1 fun rate hr => ?_
  rw [if_neg (not_lt.mpr (ok.dropout.2 rate hr))]
  split_ifs <;> exact hk _

theorem fits_nnLayers {side : Side} {o : ℕ} (todo : ℕ) : ∀ {i inDim : ℕ} {layers : List Layer},
    Fits (kindOf s sched) ans Succeeds (nnLayers t s side o todo i inDim layers) := by
  induction todo with
  | zero => intro i inDim layers; exact ⟨_, rfl⟩
  | succ todo ih =>
    intro i inDim layers
    exact fits_nat rfl ok.nodes fun n _ => fits_hiddenTail ok fun tail => ih

theorem fits_initNnModel {side : Side} {inDim o : ℕ} :
    Fits (kindOf s sched) ans Succeeds (initNnModel t s inDim o side) :=
  fits_int (compatible_refl _) (by have := ok.layers side; omega) fun n _ _ => fits_nnLayers ok _

theorem fits_initOnetModel {fs ls os : ℕ} : Fits (kindOf s sched) ans Succeeds (initOnetModel t s fs ls os) :=
  fits_nat rfl ok.nodes fun _ _ => fits_bind (P := Succeeds) _ _ (fits_initNnModel ok)
    (fun _ _ => fits_bind (P := Succeeds) _ _ (fits_initNnModel ok) (fun _ _ => ⟨_, rfl⟩)
      fun _ => not_succeeds_error) fun _ => not_succeeds_error

theorem fits_initOptimizer : Fits (kindOf s sched) ans Succeeds (initOptimizer t s) := by
  refine fits_str rfl ok.optimizer.1 fun name hn => fits_real rfl ok.learningRate.1 fun lr hl =>
    fits_real rfl ok.weightDecay.1 fun wd hw => ?_
  rw [if_neg (by simp [ok.optimizer.2 name hn]), if_neg (by
    push Not; exact ⟨ok.learningRate.2 lr hl, ok.weightDecay.2 wd hw⟩)]
  exact ⟨_, rfl⟩

theorem fits_initLossFunction : Fits (kindOf s sched) ans Succeeds (initLossFunction t s) := by
  refine fits_str rfl ok.loss.1 fun name hn => ?_
  rw [if_neg (by simp [ok.loss.2 name hn])]
  exact ⟨_, rfl⟩

/-- The answers without scheduler (`sched = false`) or with one. -/
theorem fits_initScheduler (hr : sched = true → RangesOk s)
    (ha : ∀ m, m ∈ s.schedMode → ans .schedMode (.categorical (s.schedMode.map modeValue)) (modeValue m) →
      m.isSome = sched) :
    Fits (kindOf s sched) ans Succeeds (initScheduler s) := by
  refine ⟨by simpa [Dist.valid] using ok.modes.1, compatible_refl _, fun v hv hav => ?_⟩
  obtain ⟨m, hm, rfl⟩ := List.mem_map.mp hv
  have hs := ha m hm hav
  cases m with
  | none =>
    obtain rfl : sched = false := hs.symm
    refine ⟨rfl, compatible_refl _, fun _ _ _ => ⟨rfl, compatible_refl _, fun _ _ _ => ⟨rfl, compatible_refl _,
      fun _ _ _ => ⟨_, rfl⟩⟩⟩⟩
  | some m =>
    obtain rfl : sched = true := hs.symm
    have r := hr rfl
    refine fits_float (compatible_refl _) r.factor.1 fun f _ hf _ => fits_int (compatible_refl _) r.patience fun _ _ _ =>
      fits_int (compatible_refl _) r.cooldown fun _ _ _ => ?_
    rw [if_neg (not_le.mpr (lt_of_le_of_lt hf r.factor.2)), if_neg (by
      rcases ok.modes.2 m hm with h | h <;> simp [h])]
    exact ⟨_, rfl⟩

theorem fits_trialConfig_of {fs ls os : ℕ} {pre : Option Prebuilt}
    (hpre : ∀ p, pre = some p → Fits (kindOf s sched) ans Succeeds (initPrebuiltOnetModel t s p fs ls os))
    (hr : sched = true → RangesOk s)
    (ha : ∀ m, m ∈ s.schedMode → ans .schedMode (.categorical (s.schedMode.map modeValue)) (modeValue m) →
      m.isSome = sched) :
    Fits (kindOf s sched) ans Succeeds (trialConfig t s pre fs ls os) := by
  refine fits_bind (P := Succeeds) _ _ ?_ (fun _ _ => fits_bind (P := Succeeds) _ _ (fits_initOptimizer ok)
    (fun _ _ => fits_bind (P := Succeeds) _ _ (fits_initScheduler ok hr ha)
      (fun _ _ => fits_bind (P := Succeeds) _ _ (fits_initLossFunction ok)
        (fun _ _ => fits_nat rfl ok.epochs fun _ _ => fits_nat rfl ok.batch fun _ _ => ⟨_, rfl⟩)
        fun _ => not_succeeds_error) fun _ => not_succeeds_error) fun _ => not_succeeds_error)
    fun _ => not_succeeds_error
  cases pre with
  | none => exact fits_initOnetModel ok
  | some p => exact hpre p rfl

end

/-! ### Prebuilt networks -/

/-- A dictionary `prebuilt` that has all its keys, with a number of nodes for every layer. -/
structure PrebuiltOk (pre : Prebuilt) (n : Side → ℕ) (nodes : Side → List ℕ) (latent : ℕ) : Prop where
  layers : ∀ side, pre.maxLayers side = some (n side)
  sizes : ∀ side, pre.nodes side = some (nodes side)
  enough : ∀ side, n side ≤ (nodes side).length
  latent : pre.onetOutDim = some latent

theorem fits_prebuiltLayers {t : Torch} {s : Space} (ok : SpaceOk t s) {sched : Bool}
    {ans : Param → Dist → Value → Prop} {pre : Prebuilt} {o : ℕ} (ho : pre.onetOutDim = some o) {side : Side}
    {nodes : List ℕ} (todo : ℕ) : ∀ {i inDim : ℕ} {layers : List Layer}, i + todo ≤ nodes.length →
    Fits (kindOf s sched) ans Succeeds (prebuiltLayers t s pre side nodes todo i inDim layers) := by
  induction todo with
  | zero => intro i inDim layers _; simp only [prebuiltLayers, ho, getKey]; exact ⟨_, rfl⟩
  | succ todo ih =>
    intro i inDim layers hi
    simp only [prebuiltLayers]
    rw [List.getElem?_eq_getElem (by omega)]
    exact fits_hiddenTail ok fun tail => ih (by omega)

theorem fits_prebuilt {t : Torch} {s : Space} (ok : SpaceOk t s) {sched : Bool}
    {ans : Param → Dist → Value → Prop} {pre : Prebuilt} {n : Side → ℕ} {nodes : Side → List ℕ} {o : ℕ}
    (hp : PrebuiltOk pre n nodes o) {fs ls os : ℕ} :
    Fits (kindOf s sched) ans Succeeds (initPrebuiltOnetModel t s pre fs ls os) := by
  have one : ∀ side inDim, Fits (kindOf s sched) ans Succeeds (initPrebuiltNnModel t s pre inDim side) := by
    intro side inDim
    simp only [initPrebuiltNnModel, hp.layers side, hp.sizes side, getKey]
    exact fits_prebuiltLayers ok hp.latent _ (by have := hp.enough side; omega)
  refine fits_bind (P := Succeeds) _ _ (one _ _) (fun _ _ => fits_bind (P := Succeeds) _ _ (one _ _)
    (fun _ _ => ?_) fun _ => not_succeeds_error) fun _ => not_succeeds_error
  simp only [hp.latent, getKey]
  exact ⟨_, rfl⟩

theorem prebuiltLayers_ok {draw : Sampler} (hd : Draws draw) {t : Torch} {s : Space} {pre : Prebuilt} {o : ℕ}
    (ho : pre.onetOutDim = some o) {side : Side} {nodes : List ℕ} (todo : ℕ) :
    ∀ {i inDim : ℕ} {layers : List Layer} {st st' : TrialState} {L : List Layer},
    (prebuiltLayers t s pre side nodes todo i inDim layers).run draw st = (.ok L, st') →
    ∃ hidden : List (ℕ × String × ℚ), hidden.map Prod.fst = (nodes.drop i).take todo ∧ hidden.length = todo ∧
      L = layers ++ built hidden inDim o ∧
      (∀ h ∈ hidden, h.2.1 ∈ s.activations ∧ h.2.2 ∈ s.dropout) ∧
      ∀ j n name rate, hidden[j]? = some (n, name, rate) →
        (Param.layerActivation side (i + j + 1), Value.str name) ∈ st'.params ∧
        (Param.layerDropout side (i + j + 1), Value.real rate) ∈ st'.params := by
  induction todo with
  | zero =>
    intro i inDim layers st st' L h
    simp only [prebuiltLayers, ho, getKey, Prog.run, Prod.mk.injEq, Except.ok.injEq] at h
    exact ⟨[], by simp, rfl, by rw [← h.1]; rfl, by simp, by simp⟩
  | succ todo ih =>
    intro i inDim layers st st' L h
    simp only [prebuiltLayers] at h
    cases hn : nodes[i]? with
    | none => rw [hn] at h; simp [Prog.run] at h
    | some n =>
      rw [hn] at h
      obtain ⟨name, hname, rate, hrate, st2, h2, e2⟩ := hiddenTail_ok hd h
      obtain ⟨hidden, g0, g1, g2, g3, g4⟩ := ih h2
      refine ⟨(n, name, rate) :: hidden, ?_, by simp [g1], ?_, ?_, ?_⟩
      · have hlt : i < nodes.length := by
          by_contra hc
          rw [List.getElem?_eq_none (by omega)] at hn
          cases hn
        rw [List.drop_eq_getElem_cons hlt, List.take_succ_cons, List.map_cons, g0]
        rw [List.getElem?_eq_getElem hlt] at hn
        rw [Option.some.inj hn]
      · rw [g2]; simp [built]
      · intro x hx
        rcases List.mem_cons.mp hx with rfl | hx
        · exact ⟨hname, hrate⟩
        · exact g3 x hx
      · intro j n' name' rate' hj
        cases j with
        | zero =>
          simp only [List.getElem?_cons_zero, Option.some.injEq, Prod.mk.injEq] at hj
          obtain ⟨rfl, rfl, rfl⟩ := hj
          refine ⟨run_mem h2 ?_, run_mem h2 ?_⟩ <;> rw [e2] <;> simp
        | succ j =>
          rw [List.getElem?_cons_succ] at hj
          have := g4 j n' name' rate' hj
          rw [show i + (j + 1) + 1 = i + 1 + j + 1 by omega]
          exact this

/-! ### The forward pass -/

section
variable {K : Type} [Field K]

/-- A subnetwork with the given hidden layers maps rows of the input size to rows of the output size. -/
theorem sequential_built (w : Weights K) (hidden : List (ℕ × String × ℚ))
    (hact : ∀ h ∈ hidden, ∀ x, (w.act h.2.1 x).length = x.length) :
    ∀ (pos inDim out : ℕ) (x : List K), x.length = inDim →
      ∃ y, sequential w pos (built hidden inDim out) x = .ok y ∧ y.length = out := by
  induction hidden with
  | nil =>
    intro pos inDim out x hx
    simp only [built, sequential, Layer.forward]
    rw [if_neg (by simp [hx])]
    exact ⟨_, rfl, by simp⟩
  | cons h rest ih =>
    intro pos inDim out x hx
    obtain ⟨n, name, rate⟩ := h
    have hrest : ∀ h ∈ rest, ∀ x, (w.act h.2.1 x).length = x.length := fun h hh => hact h (by simp [hh])
    simp only [built, sequential, Layer.forward]
    rw [if_neg (by simp [hx])]
    simp only
    split_ifs with hr
    · simp only [List.cons_append, List.nil_append, sequential, Layer.forward]
      exact ih hrest _ _ _ _ (by simp [hact (n, name, rate) (by simp)])
    · exact ih hrest _ _ _ _ (by simp [hact (n, name, rate) (by simp)])

/-- The prediction of a DeepONet on one sample: `fc` applied to the product of the latent rows of the two
subnetworks. -/
def Predicts (wb wt : Weights K) (fc : ℕ → ℕ → K) (net : Onet) (u y out : List K) : Prop :=
  ∃ b t, sequential wb 0 net.branch u = .ok b ∧ sequential wt 0 net.trunk y = .ok t ∧
    b.length = net.latent ∧ t.length = net.latent ∧ out.length = net.out ∧
    ∀ r, r < net.out → out.getD r 0 = ((List.range net.latent).map fun c => fc r c * (t.getD c 0 * b.getD c 0)).sum

theorem forward_ok (wb wt : Weights K) (fc : ℕ → ℕ → K) (net : Onet) (u y b t : List K)
    (hb : sequential wb 0 net.branch u = .ok b) (ht : sequential wt 0 net.trunk y = .ok t)
    (hbl : b.length = net.latent) (htl : t.length = net.latent) :
    ∃ out, net.forward wb wt fc u y = .ok out ∧ Predicts wb wt fc net u y out := by
  refine ⟨(List.range net.out).map fun r => ((List.range net.latent).map fun c =>
      fc r c * ((List.range t.length).map fun c => t.getD c 0 * b.getD c 0).getD c 0).sum,
    ?_, b, t, hb, ht, hbl, htl, ?_, ?_⟩
  · unfold Onet.forward mulRows
    rw [ht, hb]
    simp only
    rw [if_pos (by rw [hbl, htl])]
    simp only
    rw [if_neg (by simp [htl])]
  · simp
  · intro r hr
    rw [List.getD_eq_getElem?_getD, List.getElem?_map, List.getElem?_range hr]
    simp only [Option.map_some, Option.getD_some]
    congr 1
    refine List.map_congr_left fun c hc => ?_
    rw [List.mem_range] at hc
    rw [List.getD_eq_getElem?_getD, List.getElem?_map, List.getElem?_range (by rw [htl]; exact hc)]
    rfl

end

/-! ### C140, C141: the configuration of a trial -/

/-- The reported scheduler. -/
def ReportedScheduler (params : List (Param × Value)) : Option SchedulerChoice → Prop
  | none => (Param.schedMode, Value.none) ∈ params ∧ (Param.schedFactor, Value.none) ∈ params ∧
      (Param.schedPatience, Value.none) ∈ params ∧ (Param.schedCooldown, Value.none) ∈ params
  | some c => (Param.schedMode, Value.str c.mode) ∈ params ∧ (Param.schedFactor, Value.real c.factor) ∈ params ∧
      (Param.schedPatience, Value.int c.patience) ∈ params ∧ (Param.schedCooldown, Value.int c.cooldown) ∈ params

/-- The kinds of the scheduler requests, as the study knows them. -/
def factorKind : Option SchedulerChoice → Dist → Prop
  | none, d => d = .categorical [.none]
  | some _, d => ∃ lo hi, d = .float lo hi

theorem initScheduler_ok {draw : Sampler} (hd : Draws draw) {s : Space} {st st' : TrialState}
    {c : Option SchedulerChoice} (h : (initScheduler s).run draw st = (.ok c, st')) :
    ReportedScheduler st'.params c ∧ c.map (·.mode) ∈ s.schedMode ∧
      (∀ x, c = some x → x.factor < 1 ∧ (x.mode = "min" ∨ x.mode = "max") ∧
        s.schedFactor.1 ≤ x.factor ∧ x.factor ≤ s.schedFactor.2 ∧
        s.schedPatience.1 ≤ x.patience ∧ x.patience ≤ s.schedPatience.2 ∧
        s.schedCooldown.1 ≤ x.cooldown ∧ x.cooldown ≤ s.schedCooldown.2) ∧
      (∃ d, st'.known .schedFactor = some d ∧ factorKind c d) ∧
      ∀ d, st.known .schedFactor = some d → factorKind c d := by
  obtain ⟨h1, _, h3⟩ := run_suggest_ok h
  obtain ⟨m, hm, he⟩ := List.mem_map.mp (hd .schedMode _ h1)
  rw [← he] at h3
  cases m with
  | none =>
    obtain ⟨v1, g1, h4⟩ := run_suggest_ok h3
    obtain ⟨v2, _, h5⟩ := run_suggest_ok h4
    obtain ⟨v3, _, h6⟩ := run_suggest_ok h5
    simp only [Prog.run, Prod.mk.injEq, Except.ok.injEq] at h6
    obtain ⟨rfl, rfl⟩ := h6
    have e1 : ∀ p, draw p (.categorical [.none]) = .none := fun p => by
      have := hd p (.categorical [.none]) rfl
      simpa [Dist.mem] using this
    refine ⟨?_, hm, by simp, ⟨.categorical [.none], ?_, rfl⟩, ?_⟩
    · simp [ReportedScheduler, e1, modeValue]
    · simp [Function.update_apply]
    · intro d hk
      have := g1 d (by simp [Function.update_apply, hk])
      cases d <;> simp_all [Dist.compatible, factorKind]
  | some m =>
    have hf0 := run_suggest_ok h3
    obtain ⟨f, f1, f2, st1, h4, e1, k1⟩ := suggestFloat_ok hd h3
    obtain ⟨pa, p1, p2, st2, h5, e2, k2⟩ := suggestInt_ok hd h4
    obtain ⟨co, c1, c2, st3, h6, e3, k3⟩ := suggestInt_ok hd h5
    split_ifs at h6 with hf hmode
    · simp [Prog.run] at h6
    · simp [Prog.run] at h6
    · simp only [Prog.run, Prod.mk.injEq, Except.ok.injEq] at h6
      obtain ⟨rfl, rfl⟩ := h6
      refine ⟨?_, hm, ?_, ⟨.float s.schedFactor.1 s.schedFactor.2, ?_, _, _, rfl⟩, ?_⟩
      · simp [ReportedScheduler, e1, e2, e3, modeValue]
      · intro x hx
        obtain rfl := Option.some.inj hx
        refine ⟨not_le.mp hf, ?_, f1, f2, p1, p2, c1, c2⟩
        simp only
        by_contra hc
        push Not at hc
        exact hmode hc
      · rw [k3, k2, k1]; simp [Function.update_apply]
      · intro d hk
        have := hf0.2.1 d (by simp [Function.update_apply, hk])
        cases d <;> simp_all [Dist.compatible, factorKind]

theorem initOptimizer_ok {draw : Sampler} (hd : Draws draw) {t : Torch} {s : Space} {st st' : TrialState}
    {c : OptimizerChoice} (h : (initOptimizer t s).run draw st = (.ok c, st')) :
    (Param.optimizer, Value.str c.name) ∈ st'.params ∧ (Param.learningRate, Value.real c.lr) ∈ st'.params ∧
      (Param.weightDecay, Value.real c.weightDecay) ∈ st'.params ∧
      c.name ∈ s.optimizer ∧ c.lr ∈ s.learningRate ∧ c.weightDecay ∈ s.weightDecay := by
  obtain ⟨n, hn, st1, h1, e1, _⟩ := suggestStr_ok hd h
  obtain ⟨l, hl, st2, h2, e2, _⟩ := suggestReal_ok hd h1
  obtain ⟨w, hw, st3, h3, e3, _⟩ := suggestReal_ok hd h2
  split_ifs at h3
  · simp [Prog.run] at h3
  · simp [Prog.run] at h3
  · simp only [Prog.run, Prod.mk.injEq, Except.ok.injEq] at h3
    obtain ⟨rfl, rfl⟩ := h3
    exact ⟨by rw [e3, e2, e1]; simp, by rw [e3, e2]; simp, by rw [e3]; simp, hn, hl, hw⟩

theorem initLossFunction_ok {draw : Sampler} (hd : Draws draw) {t : Torch} {s : Space} {st st' : TrialState}
    {c : String} (h : (initLossFunction t s).run draw st = (.ok c, st')) :
    (Param.lossFunction, Value.str c) ∈ st'.params ∧ c ∈ s.lossFunctions := by
  obtain ⟨n, hn, st1, h1, e1, _⟩ := suggestStr_ok hd h
  split_ifs at h1
  · simp [Prog.run] at h1
  · simp only [Prog.run, Prod.mk.injEq, Except.ok.injEq] at h1
    obtain ⟨rfl, rfl⟩ := h1
    exact ⟨by rw [e1]; simp, hn⟩

/-- The settings other than the network, as they are reported. -/
structure ReportedSettings (params : List (Param × Value)) (s : Space) (c : Config) : Prop where
  optimizer : (Param.optimizer, Value.str c.optimizer.name) ∈ params ∧ c.optimizer.name ∈ s.optimizer
  lr : (Param.learningRate, Value.real c.optimizer.lr) ∈ params ∧ c.optimizer.lr ∈ s.learningRate
  weightDecay : (Param.weightDecay, Value.real c.optimizer.weightDecay) ∈ params ∧
    c.optimizer.weightDecay ∈ s.weightDecay
  scheduler : ReportedScheduler params c.scheduler ∧ c.scheduler.map (·.mode) ∈ s.schedMode
  loss : (Param.lossFunction, Value.str c.loss) ∈ params ∧ c.loss ∈ s.lossFunctions
  epochs : (Param.nEpochs, Value.nat c.epochs) ∈ params ∧ c.epochs ∈ s.nEpochs
  batch : (Param.batchSize, Value.nat c.batch) ∈ params ∧ c.batch ∈ s.batchSize

theorem ReportedScheduler.grow {params params' : List (Param × Value)} {c : Option SchedulerChoice}
    (h : ReportedScheduler params c) (hp : ∀ q ∈ params, q ∈ params') : ReportedScheduler params' c := by
  cases c <;> exact ⟨hp _ h.1, hp _ h.2.1, hp _ h.2.2.1, hp _ h.2.2.2⟩

/-- The program that builds the network. -/
def modelProg (t : Torch) (s : Space) (pre : Option Prebuilt) (fs ls os : ℕ) : Prog Onet :=
  match pre with
  | some pre => initPrebuiltOnetModel t s pre fs ls os
  | none => initOnetModel t s fs ls os

theorem trialConfig_ok {draw : Sampler} (hd : Draws draw) {t : Torch} {s : Space} {pre : Option Prebuilt}
    {fs ls os : ℕ} {st st' : TrialState} {c : Config}
    (h : (trialConfig t s pre fs ls os).run draw st = (.ok c, st')) :
    (∃ st1, (modelProg t s pre fs ls os).run draw st = (.ok c.model, st1) ∧ ∀ q ∈ st1.params, q ∈ st'.params) ∧
      ReportedSettings st'.params s c ∧
      (∃ d, st'.known .schedFactor = some d ∧ factorKind c.scheduler d) ∧
      ∀ d, st.known .schedFactor = some d → ∃ d', d.compatible d' = true ∧ factorKind c.scheduler d' := by
  have h' : ((modelProg t s pre fs ls os).bind fun model => (initOptimizer t s).bind fun opt =>
      (initScheduler s).bind fun sched => (initLossFunction t s).bind fun loss =>
      suggestNat .nEpochs s.nEpochs fun epochs => suggestNat .batchSize s.batchSize fun batch =>
        .ret ⟨model, opt, sched, loss, epochs, batch⟩).run draw st = (.ok c, st') := h
  obtain ⟨model, st1, h1, h2⟩ := run_bind_ok h'
  obtain ⟨opt, st2, h3, h4⟩ := run_bind_ok h2
  obtain ⟨sched, st3, h5, h6⟩ := run_bind_ok h4
  obtain ⟨loss, st4, h7, h8⟩ := run_bind_ok h6
  obtain ⟨ep, hep, st5, h9, e9, k9⟩ := suggestNat_ok hd h8
  obtain ⟨ba, hba, st6, h10, e10, k10⟩ := suggestNat_ok hd h9
  simp only [Prog.run, Prod.mk.injEq, Except.ok.injEq] at h10
  obtain ⟨rfl, rfl⟩ := h10
  have o := initOptimizer_ok hd h3
  have sc := initScheduler_ok hd h5
  have lo := initLossFunction_ok hd h7
  have m8 : ∀ q ∈ st4.params, q ∈ st6.params := fun q hq => run_mem h8 hq
  have m6 : ∀ q ∈ st3.params, q ∈ st6.params := fun q hq => run_mem h6 hq
  have m4 : ∀ q ∈ st2.params, q ∈ st6.params := fun q hq => run_mem h4 hq
  refine ⟨⟨st1, h1, fun q hq => run_mem h2 hq⟩, ⟨⟨m4 _ o.1, o.2.2.2.1⟩, ⟨m4 _ o.2.1, o.2.2.2.2.1⟩,
    ⟨m4 _ o.2.2.1, o.2.2.2.2.2⟩, ⟨sc.1.grow m6, sc.2.1⟩, ⟨m8 _ lo.1, lo.2⟩,
    ⟨by rw [e10, e9]; simp, hep⟩, ⟨by rw [e10]; simp, hba⟩⟩, ?_, ?_⟩
  · obtain ⟨d, hd1, hd2⟩ := sc.2.2.2.1
    obtain ⟨d', g1, g2⟩ := run_known h6 hd1
    refine ⟨d', g1, ?_⟩
    cases sched with
    | none =>
      have : d = .categorical [.none] := hd2
      subst this
      cases d' <;> simp_all [Dist.compatible, factorKind]
    | some x =>
      obtain ⟨lo, hi, rfl⟩ := hd2
      cases d' <;> simp_all [Dist.compatible, factorKind]
  · intro d hk
    obtain ⟨d1, g1, g2⟩ := run_known h1 hk
    obtain ⟨d2, g3, g4⟩ := run_known h3 g1
    exact ⟨d2, compatible_trans g2 g4, sc.2.2.2.2 d2 g3⟩

/-- C140: whatever a trial draws, the DeepONet it trains maps a row of `flux` and a row of `labels` to a row of
`y`: the two subnetworks end in rows of the drawn latent size, their product is defined and `fc` maps it to the
output size.  (Activation functions that keep the length of a row.) -/
theorem C140_networks {K : Type} [Field K] {draw : Sampler} (hd : Draws draw) {t : Torch} {s : Space} {fs ls os : ℕ}
    {study : Study} {st' : TrialState} {c : Config}
    (h : (trialConfig t s none fs ls os).run draw ⟨study, []⟩ = (.ok c, st'))
    (wb wt : Weights K) (hb : ∀ a ∈ s.activations, ∀ x, (wb.act a x).length = x.length)
    (ht : ∀ a ∈ s.activations, ∀ x, (wt.act a x).length = x.length) (fc : ℕ → ℕ → K) (u y : List K)
    (hu : u.length = fs) (hy : y.length = ls) :
    c.model.latent ∈ s.nodes ∧
    ∃ out, c.model.forward wb wt fc u y = .ok out ∧ out.length = os ∧ Predicts wb wt fc c.model u y out := by
  obtain ⟨⟨st1, h1, _⟩, _⟩ := trialConfig_ok hd h
  obtain ⟨_, ho, ⟨hid1, _, _, _, a1, _, e1⟩, ⟨hid2, _, _, _, a2, _, e2⟩⟩ := initOnetModel_ok hd h1
  obtain ⟨b, b1, b2⟩ := sequential_built wb hid1 (fun h hh => hb _ (a1 h hh).2.1) 0 fs c.model.latent u hu
  obtain ⟨v, v1, v2⟩ := sequential_built wt hid2 (fun h hh => ht _ (a2 h hh).2.1) 0 ls c.model.latent y hy
  rw [← e1] at b1
  rw [← e2] at v1
  obtain ⟨out, o1, o2⟩ := forward_ok wb wt fc c.model u y b v b1 v1 b2 v2
  refine ⟨?_, out, o1, ?_, o2⟩
  · obtain ⟨o, ho', st2, g1, _, _⟩ := suggestNat_ok hd (show (initOnetModel t s fs ls os).run draw _ = _ from h1)
    obtain ⟨_, st3, _, g2⟩ := run_bind_ok g1
    obtain ⟨_, st4, _, g3⟩ := run_bind_ok g2
    simp only [Prog.run, Prod.mk.injEq, Except.ok.injEq] at g3
    rw [← g3.1]
    exact ho'
  · obtain ⟨_, _, _, _, _, _, q, _⟩ := o2
    rw [q, ho]

/-- C140: rows of any other length are rejected with RuntimeError, they are not truncated or padded. -/
theorem C140_other_rows_rejected {K : Type} [Field K] {draw : Sampler} (hd : Draws draw) {t : Torch} {s : Space}
    {fs ls os : ℕ} {study : Study} {st' : TrialState} {c : Config}
    (h : (trialConfig t s none fs ls os).run draw ⟨study, []⟩ = (.ok c, st'))
    (wb wt : Weights K) (ht : ∀ a ∈ s.activations, ∀ x, (wt.act a x).length = x.length) (fc : ℕ → ℕ → K) (u y : List K)
    (hne : u.length ≠ fs ∨ y.length ≠ ls) : c.model.forward wb wt fc u y = .error .runtimeError := by
  obtain ⟨⟨st1, h1, _⟩, _⟩ := trialConfig_ok hd h
  obtain ⟨_, ho, ⟨hid1, _, _, _, a1, _, e1⟩, ⟨hid2, _, _, _, a2, _, e2⟩⟩ := initOnetModel_ok hd h1
  have first : ∀ (w : Weights K) (hidden : List (ℕ × String × ℚ)) (inDim latent : ℕ) (x : List K), x.length ≠ inDim →
      sequential w 0 (built hidden inDim latent) x = .error .runtimeError := by
    intro w hidden inDim latent x hx
    rcases hidden with _ | ⟨⟨n, name, rate⟩, rest⟩ <;> simp [built, sequential, Layer.forward, hx]
  unfold Onet.forward
  by_cases hy : y.length = ls
  · obtain ⟨v, v1, v2⟩ := sequential_built wt hid2 (fun h hh => ht _ (a2 h hh).2.1) 0 ls c.model.latent y hy
    rw [← e2] at v1
    have hu : u.length ≠ fs := by tauto
    rw [v1, e1, first wb hid1 fs _ u hu]
  · rw [e2, first wt hid2 ls _ y hy]

/-- C140 for `prebuilt` dictionaries with all their keys and a node count for every layer: every trial builds the
prescribed layers, and the network maps rows of the input sizes to rows of the output size. -/
theorem C140_prebuilt_networks {K : Type} [Field K] {draw : Sampler} (hd : Draws draw) {t : Torch} {s : Space}
    {fs ls os : ℕ} {pre : Prebuilt} {n : Side → ℕ} {nodes : Side → List ℕ} {latent : ℕ}
    (hp : PrebuiltOk pre n nodes latent) {study : Study} {st' : TrialState} {c : Config}
    (h : (trialConfig t s (some pre) fs ls os).run draw ⟨study, []⟩ = (.ok c, st'))
    (wb wt : Weights K) (hb : ∀ a ∈ s.activations, ∀ x, (wb.act a x).length = x.length)
    (ht : ∀ a ∈ s.activations, ∀ x, (wt.act a x).length = x.length) (fc : ℕ → ℕ → K) (u y : List K)
    (hu : u.length = fs) (hy : y.length = ls) :
    c.model.latent = latent ∧
    (∃ hidden, hidden.map Prod.fst = (nodes .branch).take (n .branch) ∧ c.model.branch = built hidden fs latent) ∧
    (∃ hidden, hidden.map Prod.fst = (nodes .trunk).take (n .trunk) ∧ c.model.trunk = built hidden ls latent) ∧
    ∃ out, c.model.forward wb wt fc u y = .ok out ∧ out.length = os ∧ Predicts wb wt fc c.model u y out := by
  obtain ⟨⟨st1, h1, _⟩, _⟩ := trialConfig_ok hd h
  have h1' : (initPrebuiltOnetModel t s pre fs ls os).run draw _ = _ := h1
  obtain ⟨B, st2, g1, g2⟩ := run_bind_ok h1'
  obtain ⟨T, st3, g3, g4⟩ := run_bind_ok g2
  simp only [hp.latent, getKey, Prog.run, Prod.mk.injEq, Except.ok.injEq] at g4
  simp only [initPrebuiltNnModel, hp.layers, hp.sizes, getKey] at g1 g3
  obtain ⟨hid1, q1, _, e1, a1, _⟩ := prebuiltLayers_ok hd hp.latent _ g1
  obtain ⟨hid2, q2, _, e2, a2, _⟩ := prebuiltLayers_ok hd hp.latent _ g3
  rw [List.nil_append] at e1 e2
  rw [List.drop_zero] at q1 q2
  obtain ⟨b, b1, b2⟩ := sequential_built wb hid1 (fun h hh => hb _ (a1 h hh).1) 0 fs latent u hu
  obtain ⟨v, v1, v2⟩ := sequential_built wt hid2 (fun h hh => ht _ (a2 h hh).1) 0 ls latent y hy
  rw [← g4.1]
  rw [← e1] at b1
  rw [← e2] at v1
  obtain ⟨out, o1, o2⟩ := forward_ok wb wt fc ⟨B, T, latent, os⟩ u y b v b1 v1 b2 v2
  refine ⟨rfl, ⟨hid1, q1, e1⟩, ⟨hid2, q2, e2⟩, out, o1, ?_, o2⟩
  obtain ⟨_, _, _, _, _, _, q, _⟩ := o2
  exact q

/-- C141: the parameters a trial reports are those of the network, optimizer, scheduler, loss, epochs and batch size
it trains with, and all of them come from the search space. -/
theorem C141_reported {draw : Sampler} (hd : Draws draw) {t : Torch} {s : Space} {fs ls os : ℕ}
    {study : Study} {st' : TrialState} {c : Config}
    (h : (trialConfig t s none fs ls os).run draw ⟨study, []⟩ = (.ok c, st')) :
    (Param.latent, Value.nat c.model.latent) ∈ st'.params ∧ c.model.out = os ∧
      Describes st'.params s .branch fs c.model.latent c.model.branch ∧
      Describes st'.params s .trunk ls c.model.latent c.model.trunk ∧
      ReportedSettings st'.params s c := by
  obtain ⟨⟨st1, h1, hm⟩, h2, _⟩ := trialConfig_ok hd h
  obtain ⟨g1, g2, g3, g4⟩ := initOnetModel_ok hd h1
  exact ⟨hm _ g1, g2, g3.grow hm, g4.grow hm, h2⟩

/-! ### C141: one value per name -/

/-- All names a program can ask for satisfy `P`. -/
def Uses {A : Type} (P : Param → Prop) : Prog A → Prop
  | .ret _ => True
  | .raise _ => True
  | .suggest p _ k => P p ∧ ∀ v, Uses P (k v)

/-- No name is asked for twice. -/
def Fresh {A : Type} : Prog A → Prop
  | .ret _ => True
  | .raise _ => True
  | .suggest p _ k => ∀ v, Uses (· ≠ p) (k v) ∧ Fresh (k v)

theorem Uses.mono {A : Type} {P Q : Param → Prop} (hPQ : ∀ p, P p → Q p) {g : Prog A} (h : Uses P g) : Uses Q g := by
  induction g with
  | ret a => trivial
  | raise e => trivial
  | suggest p d k ih => exact ⟨hPQ p h.1, fun v => ih v (h.2 v)⟩

theorem uses_bind {A B : Type} {P : Param → Prop} {g : Prog A} {f : A → Prog B} (hg : Uses P g)
    (hf : ∀ a, Uses P (f a)) : Uses P (g.bind f) := by
  induction g with
  | ret a => exact hf a
  | raise e => trivial
  | suggest p d k ih => exact ⟨hg.1, fun v => ih v (hg.2 v)⟩

theorem fresh_bind {A B : Type} {P : Param → Prop} {g : Prog A} {f : A → Prog B} (hg : Fresh g) (hu : Uses P g)
    (hf : ∀ a, Fresh (f a)) (huf : ∀ a, Uses (fun p => ¬ P p) (f a)) : Fresh (g.bind f) := by
  induction g with
  | ret a => exact hf a
  | raise e => trivial
  | suggest p d k ih =>
    refine fun v => ⟨uses_bind (hg v).1 fun a => Uses.mono (Q := fun q => q ≠ p) (fun q hq he => ?_) (huf a),
      ih v (hg v).2 (hu.2 v)⟩
    subst he
    exact hq hu.1

/-- The reported names are different. -/
theorem run_nodup {A : Type} {draw : Sampler} {g : Prog A} {P : Param → Prop} (hg : Fresh g) (hu : Uses P g)
    {st st' : TrialState} {a : A} (h : g.run draw st = (.ok a, st')) (hst : (st.params.map Prod.fst).Nodup)
    (hP : ∀ q ∈ st.params, ¬ P q.1) : (st'.params.map Prod.fst).Nodup := by
  induction g generalizing st P with
  | ret a => simp only [Prog.run, Prod.mk.injEq] at h; rw [← h.2]; exact hst
  | raise e => simp [Prog.run] at h
  | suggest p d k ih =>
    obtain ⟨_, _, h3⟩ := run_suggest_ok h
    have huse : Uses (fun q => q ≠ p ∧ P q) (k (draw p d)) := by
      have h1 := (hg (draw p d)).1
      have h2 := hu.2 (draw p d)
      revert h1 h2
      generalize k (draw p d) = g
      intro h1 h2
      clear h3 ih
      induction g with
      | ret a => trivial
      | raise e => trivial
      | suggest p' d' k' ih' => exact ⟨⟨h1.1, h2.1⟩, fun v => ih' v (h1.2 v) (h2.2 v)⟩
    refine ih _ (hg (draw p d)).2 huse h3 ?_ ?_
    · simp only [List.map_cons, List.nodup_cons]
      refine ⟨fun hm => ?_, hst⟩
      obtain ⟨q, hq, he⟩ := List.mem_map.mp hm
      exact hP q hq (he ▸ hu.1)
    · intro q hq
      rcases List.mem_cons.mp hq with rfl | hq
      · exact fun hc => hc.1 rfl
      · exact fun hc => hP q hq hc.2

/-- Runs that report the same values have the same result. -/
theorem run_determined {A : Type} {d1 d2 : Sampler} {g : Prog A} {s1 s2 t1 t2 : TrialState} {a b : A}
    (h1 : g.run d1 s1 = (.ok a, t1)) (h2 : g.run d2 s2 = (.ok b, t2))
    (hn : (t2.params.map Prod.fst).Nodup) (hsub : ∀ q ∈ t1.params, q ∈ t2.params) : a = b := by
  induction g generalizing s1 s2 with
  | ret x =>
    simp only [Prog.run, Prod.mk.injEq, Except.ok.injEq] at h1 h2
    rw [← h1.1, ← h2.1]
  | raise e => simp [Prog.run] at h1
  | suggest p d k ih =>
    obtain ⟨_, _, g1⟩ := run_suggest_ok h1
    obtain ⟨_, _, g2⟩ := run_suggest_ok h2
    have m1 : (p, d1 p d) ∈ t2.params := hsub _ (run_mem g1 (by simp))
    have m2 : (p, d2 p d) ∈ t2.params := run_mem g2 (by simp)
    have : d1 p d = d2 p d := by
      have := List.inj_on_of_nodup_map hn m1 m2 rfl
      exact (Prod.mk.inj this).2
    rw [this] at g1
    exact ih _ g1 g2

section
variable {P : Param → Prop} {A : Type} {p : Param}

theorem uses_nat {l : List ℕ} {k : ℕ → Prog A} (hp : P p) (hk : ∀ n, Uses P (k n)) : Uses P (suggestNat p l k) :=
  ⟨hp, fun v => by cases v <;> first | exact hk _ | trivial⟩

theorem uses_str {l : List String} {k : String → Prog A} (hp : P p) (hk : ∀ n, Uses P (k n)) :
    Uses P (suggestStr p l k) :=
  ⟨hp, fun v => by cases v <;> first | exact hk _ | trivial⟩

theorem uses_real {l : List ℚ} {k : ℚ → Prog A} (hp : P p) (hk : ∀ n, Uses P (k n)) : Uses P (suggestReal p l k) :=
  ⟨hp, fun v => by cases v <;> first | exact hk _ | trivial⟩

theorem uses_int {lo hi : ℤ} {k : ℤ → Prog A} (hp : P p) (hk : ∀ n, Uses P (k n)) : Uses P (suggestInt p lo hi k) :=
  ⟨hp, fun v => by cases v <;> first | exact hk _ | trivial⟩

theorem uses_float {lo hi : ℚ} {k : ℚ → Prog A} (hp : P p) (hk : ∀ n, Uses P (k n)) :
    Uses P (suggestFloat p lo hi k) :=
  ⟨hp, fun v => by cases v <;> first | exact hk _ | trivial⟩

theorem fresh_nat {l : List ℕ} {k : ℕ → Prog A} (hu : ∀ n, Uses (· ≠ p) (k n)) (hk : ∀ n, Fresh (k n)) :
    Fresh (suggestNat p l k) :=
  fun v => ⟨by cases v <;> first | exact hu _ | trivial, by cases v <;> first | exact hk _ | trivial⟩

theorem fresh_str {l : List String} {k : String → Prog A} (hu : ∀ n, Uses (· ≠ p) (k n)) (hk : ∀ n, Fresh (k n)) :
    Fresh (suggestStr p l k) :=
  fun v => ⟨by cases v <;> first | exact hu _ | trivial, by cases v <;> first | exact hk _ | trivial⟩

theorem fresh_real {l : List ℚ} {k : ℚ → Prog A} (hu : ∀ n, Uses (· ≠ p) (k n)) (hk : ∀ n, Fresh (k n)) :
    Fresh (suggestReal p l k) :=
  fun v => ⟨by cases v <;> first | exact hu _ | trivial, by cases v <;> first | exact hk _ | trivial⟩

theorem fresh_int {lo hi : ℤ} {k : ℤ → Prog A} (hu : ∀ n, Uses (· ≠ p) (k n)) (hk : ∀ n, Fresh (k n)) :
    Fresh (suggestInt p lo hi k) :=
  fun v => ⟨by cases v <;> first | exact hu _ | trivial, by cases v <;> first | exact hk _ | trivial⟩

theorem fresh_float {lo hi : ℚ} {k : ℚ → Prog A} (hu : ∀ n, Uses (· ≠ p) (k n)) (hk : ∀ n, Fresh (k n)) :
    Fresh (suggestFloat p lo hi k) :=
  fun v => ⟨by cases v <;> first | exact hu _ | trivial, by cases v <;> first | exact hk _ | trivial⟩

end

/-- The names of the layers of one side, from number `i` on. -/
def layerName (side : Side) (i : ℕ) : Param → Prop
  | .layerNodes s j => s = side ∧ i < j
  | .layerActivation s j => s = side ∧ i < j
  | .layerDropout s j => s = side ∧ i < j
  | _ => False

theorem layerName_succ {side : Side} {i : ℕ} {p : Param} (h : layerName side (i + 1) p) : layerName side i p := by
  cases p <;> simp only [layerName] at h ⊢ <;> first | exact h | exact ⟨h.1, by omega⟩

theorem uses_hiddenTail {t : Torch} {s : Space} {side : Side} {i : ℕ} {P : Param → Prop}
    {k : List Layer → Prog (List Layer)} (h1 : P (.layerActivation side (i + 1))) (h2 : P (.layerDropout side (i + 1)))
    (hk : ∀ tail, Uses P (k tail)) : Uses P (hiddenTail t s side i k) := by
  refine uses_str h1 fun name => ?_
  split_ifs
  · trivial
  · refine uses_real h2 fun rate => ?_
    split_ifs
    · trivial
    · exact hk _
    · exact hk _

theorem fresh_hiddenTail {t : Torch} {s : Space} {side : Side} {i : ℕ}
    {k : List Layer → Prog (List Layer)} (hu : ∀ tail, Uses (layerName side (i + 1)) (k tail))
    (hk : ∀ tail, Fresh (k tail)) : Fresh (hiddenTail t s side i k) := by
  have n1 : ∀ {q}, layerName side (i + 1) q → q ≠ .layerActivation side (i + 1) := by
    rintro q hq rfl; exact absurd hq.2 (by omega)
  have n2 : ∀ {q}, layerName side (i + 1) q → q ≠ .layerDropout side (i + 1) := by
    rintro q hq rfl; exact absurd hq.2 (by omega)
  refine fresh_str (fun name => ?_) fun name => ?_
  · split_ifs
    · trivial
    · refine uses_real (by simp) fun rate => ?_
      split_ifs
      · trivial
      · exact (hu _).mono fun q => n1
      · exact (hu _).mono fun q => n1
  · split_ifs
    · trivial
    · refine fresh_real (fun rate => ?_) fun rate => ?_
      · split_ifs
        · trivial
        · exact (hu _).mono fun q => n2
        · exact (hu _).mono fun q => n2
      · split_ifs
        · trivial
        · exact hk _
        · exact hk _

theorem uses_nnLayers {t : Torch} {s : Space} {side : Side} {o : ℕ} (todo : ℕ) : ∀ {i inDim : ℕ} {layers : List Layer},
    Uses (layerName side i) (nnLayers t s side o todo i inDim layers) := by
  induction todo with
  | zero => intro i inDim layers; trivial
  | succ todo ih =>
    intro i inDim layers
    exact uses_nat ⟨rfl, by omega⟩ fun n => uses_hiddenTail ⟨rfl, by omega⟩ ⟨rfl, by omega⟩ fun tail =>
      ih.mono fun q => layerName_succ

theorem fresh_nnLayers {t : Torch} {s : Space} {side : Side} {o : ℕ} (todo : ℕ) :
    ∀ {i inDim : ℕ} {layers : List Layer}, Fresh (nnLayers t s side o todo i inDim layers) := by
  induction todo with
  | zero => intro i inDim layers; trivial
  | succ todo ih =>
    intro i inDim layers
    refine fresh_nat (fun n => uses_hiddenTail (by simp) (by simp) fun tail => (uses_nnLayers todo).mono fun q hq he =>
      ?_) fun n => fresh_hiddenTail (fun tail => uses_nnLayers todo) fun tail => ih
    subst he
    exact absurd hq.2 (by omega)

/-- The names of one subnetwork. -/
def sideName (side : Side) (p : Param) : Prop := p = .numLayers side ∨ layerName side 0 p

theorem uses_initNnModel {t : Torch} {s : Space} {side : Side} {inDim o : ℕ} :
    Uses (sideName side) (initNnModel t s inDim o side) :=
  uses_int (Or.inl rfl) fun _ => (uses_nnLayers _).mono fun _ => Or.inr

theorem fresh_initNnModel {t : Torch} {s : Space} {side : Side} {inDim o : ℕ} :
    Fresh (initNnModel t s inDim o side) :=
  fresh_int (fun _ => (uses_nnLayers _).mono fun q hq he => by subst he; exact hq) fun _ => fresh_nnLayers _

theorem sideName_branch_trunk {p : Param} (h : sideName .trunk p) : ¬ sideName .branch p := by
  rintro (rfl | h')
  · rcases h with h | h
    · simp at h
    · exact h
  · rcases h with rfl | h
    · exact h'
    · cases p <;> simp_all [layerName]

/-- The names of the network. -/
def modelName (p : Param) : Prop := p = .latent ∨ sideName .branch p ∨ sideName .trunk p

theorem uses_initOnetModel {t : Torch} {s : Space} {fs ls os : ℕ} : Uses modelName (initOnetModel t s fs ls os) :=
  uses_nat (Or.inl rfl) fun _ => uses_bind (uses_initNnModel.mono fun _ h => Or.inr (Or.inl h)) fun _ =>
    uses_bind (uses_initNnModel.mono fun _ h => Or.inr (Or.inr h)) fun _ => trivial

theorem sideName_ne_latent {side : Side} {p : Param} (h : sideName side p) : p ≠ .latent := by
  rintro rfl
  rcases h with h | h
  · simp at h
  · exact h

theorem fresh_initOnetModel {t : Torch} {s : Space} {fs ls os : ℕ} : Fresh (initOnetModel t s fs ls os) :=
  fresh_nat (fun _ => uses_bind (uses_initNnModel.mono fun _ => sideName_ne_latent) fun _ =>
    uses_bind (uses_initNnModel.mono fun _ => sideName_ne_latent) fun _ => trivial) fun _ =>
    fresh_bind fresh_initNnModel uses_initNnModel (fun _ => fresh_bind fresh_initNnModel uses_initNnModel
      (fun _ => trivial) fun _ => trivial) fun _ =>
      uses_bind (uses_initNnModel.mono fun _ => sideName_branch_trunk) fun _ => trivial

theorem uses_prebuiltLayers {t : Torch} {s : Space} {pre : Prebuilt} {side : Side} {nodes : List ℕ} (todo : ℕ) :
    ∀ {i inDim : ℕ} {layers : List Layer},
      Uses (layerName side i) (prebuiltLayers t s pre side nodes todo i inDim layers) := by
  induction todo with
  | zero =>
    intro i inDim layers
    simp only [prebuiltLayers, getKey]
    split <;> trivial
  | succ todo ih =>
    intro i inDim layers
    simp only [prebuiltLayers]
    split
    · trivial
    · exact uses_hiddenTail ⟨rfl, by omega⟩ ⟨rfl, by omega⟩ fun tail => ih.mono fun q => layerName_succ

theorem fresh_prebuiltLayers {t : Torch} {s : Space} {pre : Prebuilt} {side : Side} {nodes : List ℕ} (todo : ℕ) :
    ∀ {i inDim : ℕ} {layers : List Layer}, Fresh (prebuiltLayers t s pre side nodes todo i inDim layers) := by
  induction todo with
  | zero =>
    intro i inDim layers
    simp only [prebuiltLayers, getKey]
    split <;> trivial
  | succ todo ih =>
    intro i inDim layers
    simp only [prebuiltLayers]
    split
    · trivial
    · exact fresh_hiddenTail (fun tail => uses_prebuiltLayers todo) fun tail => ih

theorem uses_initPrebuiltNnModel {t : Torch} {s : Space} {pre : Prebuilt} {side : Side} {inDim : ℕ} :
    Uses (sideName side) (initPrebuiltNnModel t s pre inDim side) := by
  simp only [initPrebuiltNnModel, getKey]
  split
  · split
    · exact (uses_prebuiltLayers _).mono fun _ => Or.inr
    · trivial
  · trivial

theorem fresh_initPrebuiltNnModel {t : Torch} {s : Space} {pre : Prebuilt} {side : Side} {inDim : ℕ} :
    Fresh (initPrebuiltNnModel t s pre inDim side) := by
  simp only [initPrebuiltNnModel, getKey]
  split
  · split
    · exact fresh_prebuiltLayers _
    · trivial
  · trivial

theorem uses_modelProg {t : Torch} {s : Space} {pre : Option Prebuilt} {fs ls os : ℕ} :
    Uses modelName (modelProg t s pre fs ls os) := by
  cases pre with
  | none => exact uses_initOnetModel
  | some pre =>
    refine uses_bind (uses_initPrebuiltNnModel.mono fun _ h => Or.inr (Or.inl h)) fun _ =>
      uses_bind (uses_initPrebuiltNnModel.mono fun _ h => Or.inr (Or.inr h)) fun _ => ?_
    simp only [getKey]
    split <;> trivial

theorem fresh_modelProg {t : Torch} {s : Space} {pre : Option Prebuilt} {fs ls os : ℕ} :
    Fresh (modelProg t s pre fs ls os) := by
  cases pre with
  | none => exact fresh_initOnetModel
  | some pre =>
    refine fresh_bind fresh_initPrebuiltNnModel uses_initPrebuiltNnModel (fun _ => fresh_bind fresh_initPrebuiltNnModel
      uses_initPrebuiltNnModel (fun _ => ?_) fun _ => ?_) fun _ =>
      uses_bind (uses_initPrebuiltNnModel.mono fun _ => sideName_branch_trunk) fun _ => ?_
    all_goals simp only [getKey]; split <;> trivial

/-- The names of the scheduler. -/
def schedName (p : Param) : Prop :=
  p = .schedMode ∨ p = .schedFactor ∨ p = .schedPatience ∨ p = .schedCooldown

theorem uses_initScheduler {s : Space} : Uses schedName (initScheduler s) := by
  refine ⟨Or.inl rfl, fun v => ?_⟩
  cases v with
  | none => exact ⟨by simp [schedName], fun _ => ⟨by simp [schedName], fun _ => ⟨by simp [schedName], fun _ => trivial⟩⟩⟩
  | str m =>
    refine uses_float (by simp [schedName]) fun _ => uses_int (by simp [schedName]) fun _ =>
      uses_int (by simp [schedName]) fun _ => ?_
    split_ifs <;> trivial
  | _ => trivial

theorem fresh_initScheduler {s : Space} : Fresh (initScheduler s) := by
  refine fun v => ?_
  cases v with
  | none =>
    exact ⟨⟨by simp, fun _ => ⟨by simp, fun _ => ⟨by simp, fun _ => trivial⟩⟩⟩,
      fun _ => ⟨⟨by simp, fun _ => ⟨by simp, fun _ => trivial⟩⟩, fun _ => ⟨⟨by simp, fun _ => trivial⟩,
        fun _ => ⟨trivial, trivial⟩⟩⟩⟩
  | str m =>
    have last : ∀ {P : Param → Prop} {f a b}, Uses P (if (1 : ℚ) ≤ f then .raise .valueError
        else if m ≠ "min" ∧ m ≠ "max" then .raise .valueError else .ret (some (⟨m, f, a, b⟩ : SchedulerChoice))) := by
      intro P f a b; split_ifs <;> trivial
    refine ⟨uses_float (by simp) fun _ => uses_int (by simp) fun _ => uses_int (by simp) fun _ => last,
      fresh_float (fun _ => uses_int (by simp) fun _ => uses_int (by simp) fun _ => last) fun _ =>
      fresh_int (fun _ => uses_int (by simp) fun _ => last) fun _ => fresh_int (fun _ => last) fun _ => ?_⟩
    split_ifs <;> trivial
  | _ => exact ⟨trivial, trivial⟩

/-- The names of the optimizer. -/
def optName (p : Param) : Prop := p = .optimizer ∨ p = .learningRate ∨ p = .weightDecay

theorem uses_initOptimizer {t : Torch} {s : Space} : Uses optName (initOptimizer t s) := by
  refine uses_str (by simp [optName]) fun _ => uses_real (by simp [optName]) fun _ =>
    uses_real (by simp [optName]) fun _ => ?_
  split_ifs <;> trivial

theorem fresh_initOptimizer {t : Torch} {s : Space} : Fresh (initOptimizer t s) := by
  refine fresh_str (fun _ => uses_real (by simp) fun _ => uses_real (by simp) fun _ => ?_) fun _ =>
    fresh_real (fun _ => uses_real (by simp) fun _ => ?_) fun _ => fresh_real (fun _ => ?_) fun _ => ?_
  all_goals split_ifs <;> trivial

theorem uses_initLossFunction {t : Torch} {s : Space} : Uses (· = .lossFunction) (initLossFunction t s) := by
  refine uses_str rfl fun _ => ?_
  split_ifs <;> trivial

theorem fresh_initLossFunction {t : Torch} {s : Space} : Fresh (initLossFunction t s) := by
  refine fresh_str (fun _ => ?_) fun _ => ?_
  all_goals split_ifs <;> trivial

theorem not_modelName {p : Param} (h : optName p ∨ schedName p ∨ p = .lossFunction ∨ p = .nEpochs ∨ p = .batchSize) :
    ¬ modelName p := by
  have hl : ∀ side, ¬ layerName side 0 p := by
    intro side
    cases p <;> simp_all [optName, schedName, layerName]
  rintro (rfl | (rfl | h') | (rfl | h'))
  · simp [optName, schedName] at h
  · simp [optName, schedName] at h
  · exact hl _ h'
  · simp [optName, schedName] at h
  · exact hl _ h'

theorem fresh_trialConfig {t : Torch} {s : Space} {pre : Option Prebuilt} {fs ls os : ℕ} :
    Fresh (trialConfig t s pre fs ls os) := by
  have u4 : ∀ {P : Param → Prop} {m o sc l}, P .nEpochs → P .batchSize →
      Uses P (suggestNat .nEpochs s.nEpochs fun epochs => suggestNat .batchSize s.batchSize fun batch =>
        .ret (⟨m, o, sc, l, epochs, batch⟩ : Config)) := fun h1 h2 => uses_nat h1 fun _ => uses_nat h2 fun _ => trivial
  have u3 : ∀ {P : Param → Prop} {m o sc}, P .lossFunction → P .nEpochs → P .batchSize →
      Uses P ((initLossFunction t s).bind fun l => suggestNat .nEpochs s.nEpochs fun epochs =>
        suggestNat .batchSize s.batchSize fun batch => .ret (⟨m, o, sc, l, epochs, batch⟩ : Config)) :=
    fun h0 h1 h2 => uses_bind (uses_initLossFunction.mono fun q hq => by rw [hq]; exact h0) fun _ => u4 h1 h2
  have u2 : ∀ {P : Param → Prop} {m o}, (∀ q, schedName q → P q) → P .lossFunction → P .nEpochs → P .batchSize →
      Uses P ((initScheduler s).bind fun sc => (initLossFunction t s).bind fun l =>
        suggestNat .nEpochs s.nEpochs fun epochs => suggestNat .batchSize s.batchSize fun batch =>
          .ret (⟨m, o, sc, l, epochs, batch⟩ : Config)) :=
    fun hs h0 h1 h2 => uses_bind (uses_initScheduler.mono hs) fun _ => u3 h0 h1 h2
  show Fresh ((modelProg t s pre fs ls os).bind fun model => (initOptimizer t s).bind fun opt =>
      (initScheduler s).bind fun sched => (initLossFunction t s).bind fun loss =>
      suggestNat .nEpochs s.nEpochs fun epochs => suggestNat .batchSize s.batchSize fun batch =>
        .ret (⟨model, opt, sched, loss, epochs, batch⟩ : Config))
  refine fresh_bind fresh_modelProg uses_modelProg (fun _ => fresh_bind fresh_initOptimizer uses_initOptimizer
    (fun _ => fresh_bind fresh_initScheduler uses_initScheduler (fun _ => fresh_bind fresh_initLossFunction
      uses_initLossFunction (fun _ => ?_) fun _ => u4 (by simp) (by simp))
      fun _ => u3 (by simp [schedName]) (by simp [schedName]) (by simp [schedName])) fun _ =>
      u2 ?_ (by simp [optName]) (by simp [optName]) (by simp [optName])) fun _ =>
      uses_bind (uses_initOptimizer.mono fun q hq => not_modelName (Or.inl hq)) fun _ =>
        u2 (fun q hq => not_modelName (Or.inr (Or.inl hq))) (not_modelName (by simp)) (not_modelName (by simp))
          (not_modelName (by simp))
  · exact fresh_nat (fun _ => uses_nat (by simp) fun _ => trivial) fun _ => fresh_nat (fun _ => trivial) fun _ => trivial
  · rintro q (rfl | rfl | rfl | rfl) <;> simp [optName]

theorem uses_all {A : Type} (g : Prog A) : Uses (fun _ => True) g := by
  induction g with
  | ret a => trivial
  | raise e => trivial
  | suggest p d k ih => exact ⟨trivial, ih⟩

/-- C141: a trial reports one value per name, and two trials - of any studies, drawn by any samplers - that report
the same values train the same network with the same optimizer, scheduler, loss, epochs and batch size. -/
theorem C141_parameters_determine {d1 d2 : Sampler} {t : Torch} {s : Space} {pre : Option Prebuilt} {fs ls os : ℕ}
    {study1 study2 : Study} {t1 t2 : TrialState} {c1 c2 : Config}
    (h1 : (trialConfig t s pre fs ls os).run d1 ⟨study1, []⟩ = (.ok c1, t1))
    (h2 : (trialConfig t s pre fs ls os).run d2 ⟨study2, []⟩ = (.ok c2, t2)) :
    (t1.params.map Prod.fst).Nodup ∧ ((∀ q ∈ t1.params, q ∈ t2.params) → c1 = c2) := by
  have hn : ∀ {d study st' c}, (trialConfig t s pre fs ls os).run d ⟨study, []⟩ = (.ok c, st') →
      (st'.params.map Prod.fst).Nodup := fun h =>
    run_nodup fresh_trialConfig (uses_all _) h List.nodup_nil (by simp)
  exact ⟨hn h1, run_determined h1 h2 (hn h2)⟩

/-! ### C142: studies -/

theorem optimize_fits {D : Param → Dist} {ans : Param → Dist → Value → Prop} {g : Prog Config}
    (hg : Fits D ans Succeeds g) (draws : List Sampler) (hd : ∀ d ∈ draws, Draws d)
    (ha : ∀ d ∈ draws, ∀ (p : Param) (x : Dist), ans p x (d p x)) :
    ∀ st : Study, Within D st → ∃ l st', optimize g draws st = (.ok l, st') ∧ l.length = draws.length ∧ Within D st' := by
  induction draws with
  | nil => intro st hst; exact ⟨[], st, rfl, rfl, hst⟩
  | cons d draws ih =>
    intro st hst
    obtain ⟨⟨c, hc⟩, h2⟩ := run_fits (hd d (by simp)) (ha d (by simp)) g hg ⟨st, []⟩ hst
    obtain ⟨l, st', h3, h4, h5⟩ := ih (fun x hx => hd x (by simp [hx])) (fun x hx => ha x (by simp [hx])) _ h2
    refine ⟨⟨c, (g.run d ⟨st, []⟩).2.params⟩ :: l, st', ?_, by simp [h4], h5⟩
    rw [optimize]
    generalize hr : g.run d ⟨st, []⟩ = r at hc h3 ⊢
    obtain ⟨r, s'⟩ := r
    simp only at hc h3
    subst hc
    simp only
    rw [h3]

theorem sessions_fits {D : Param → Dist} {ans : Param → Dist → Value → Prop} {g : Prog Config}
    (hg : Fits D ans Succeeds g) (runs : List (List Sampler)) (hd : ∀ r ∈ runs, ∀ d ∈ r, Draws d)
    (ha : ∀ r ∈ runs, ∀ d ∈ r, ∀ (p : Param) (x : Dist), ans p x (d p x)) :
    ∀ st : Study, Within D st → ∃ l st', sessions g runs st = (.ok l, st') ∧
      l.length = (runs.map List.length).sum ∧ Within D st' := by
  induction runs with
  | nil => intro st hst; exact ⟨[], st, rfl, rfl, hst⟩
  | cons r runs ih =>
    intro st hst
    obtain ⟨l, s1, h1, h2, h3⟩ := optimize_fits hg r (hd r (by simp)) (ha r (by simp)) st hst
    obtain ⟨l', s2, h4, h5, h6⟩ := ih (fun x hx => hd x (by simp [hx])) (fun x hx => ha x (by simp [hx])) s1 h3
    refine ⟨l ++ l', s2, ?_, by simp [h2, h5], h6⟩
    rw [sessions, h1]
    simp only
    rw [h4]

/-- The network of a trial can be built: either it is searched for, or `prebuilt` is complete. -/
def ModelOk (pre : Option Prebuilt) : Prop := ∀ p, pre = some p → ∃ n nodes latent, PrebuiltOk p n nodes latent

/-- C142: for a search space with values `torch` accepts, in which either every `sched_mode` is None or none is (with
factors below one), every study runs through: any number of `run` calls on one stored study, with any number of
trials each, whatever the samplers draw. -/
theorem C142_studies_run_partial {t : Torch} {s : Space} (ok : SpaceOk t s) {pre : Option Prebuilt} (hp : ModelOk pre)
    (hm : (∀ m ∈ s.schedMode, m = none) ∨ (none ∉ s.schedMode ∧ RangesOk s)) (fs ls os : ℕ)
    (runs : List (List Sampler)) (hd : ∀ r ∈ runs, ∀ d ∈ r, Draws d) :
    ∃ l st, sessions (trialConfig t s pre fs ls os) runs newStudy = (.ok l, st) ∧
      l.length = (runs.map List.length).sum := by
  have key : ∀ sched, (sched = true → RangesOk s) → (∀ m ∈ s.schedMode, m.isSome = sched) →
      ∃ l st, sessions (trialConfig t s pre fs ls os) runs newStudy = (.ok l, st) ∧
        l.length = (runs.map List.length).sum := by
    intro sched h1 h2
    obtain ⟨l, st, g1, g2, _⟩ := sessions_fits (D := kindOf s sched) (ans := fun _ _ _ => True)
      (g := trialConfig t s pre fs ls os)
      (fits_trialConfig_of ok (fun p hpp => by
        obtain ⟨n, nodes, latent, h⟩ := hp p hpp
        exact fits_prebuilt ok h) h1 (fun m hm _ => h2 m hm)) runs hd (fun _ _ _ _ _ _ => trivial) newStudy
      (fun p d h => by simp [newStudy] at h)
    exact ⟨l, st, g1, g2⟩
  rcases hm with hm | ⟨hm, hr⟩
  · exact key false (by simp) fun m h => by rw [hm m h]; rfl
  · refine key true (fun _ => hr) fun m h => ?_
    cases m with
    | none => exact absurd h hm
    | some m => rfl

theorem factorKind_compatible {c : Option SchedulerChoice} {d d' : Dist} (h : factorKind c d)
    (hc : d.compatible d' = true) : factorKind c d' := by
  cases c with
  | none =>
    have : d = .categorical [.none] := h
    subst this
    cases d' <;> simp_all [Dist.compatible, factorKind]
  | some x =>
    obtain ⟨lo, hi, rfl⟩ := h
    cases d' <;> simp_all [Dist.compatible, factorKind]

theorem factorKind_same {c c' : Option SchedulerChoice} {d : Dist} (h : factorKind c d) (h' : factorKind c' d) :
    c.isSome = c'.isSome := by
  cases c <;> cases c' <;> simp_all [factorKind]

theorem optimize_kinds {t : Torch} {s : Space} {pre : Option Prebuilt} {fs ls os : ℕ} (draws : List Sampler)
    (hd : ∀ d ∈ draws, Draws d) : ∀ (st st' : Study) (l : List Finished),
    optimize (trialConfig t s pre fs ls os) draws st = (.ok l, st') →
    (∀ d, st .schedFactor = some d → (∃ d', st' .schedFactor = some d' ∧ d.compatible d' = true)) ∧
    (∀ f ∈ l, ∃ d', st' .schedFactor = some d' ∧ factorKind f.config.scheduler d') := by
  induction draws with
  | nil =>
    intro st st' l h
    simp only [optimize, Prod.mk.injEq, Except.ok.injEq] at h
    obtain ⟨rfl, rfl⟩ := h
    exact ⟨fun d hd => ⟨d, hd, compatible_refl d⟩, by simp⟩
  | cons d draws ih =>
    intro st st' l h
    rw [optimize] at h
    generalize hr : (trialConfig t s pre fs ls os).run d ⟨st, []⟩ = r at h
    obtain ⟨r, s1⟩ := r
    cases r with
    | error e => simp at h
    | ok c =>
      simp only at h
      generalize ho : optimize (trialConfig t s pre fs ls os) draws s1.known = r2 at h
      obtain ⟨r2, s2⟩ := r2
      cases r2 with
      | error e => simp at h
      | ok l2 =>
        simp only [Prod.mk.injEq, Except.ok.injEq] at h
        obtain ⟨rfl, rfl⟩ := h
        obtain ⟨i1, i2⟩ := ih (fun x hx => hd x (by simp [hx])) _ _ _ ho
        obtain ⟨_, _, ⟨d1, k1, k2⟩, _⟩ := trialConfig_ok (hd d (by simp)) hr
        refine ⟨fun d0 h0 => ?_, fun f hf => ?_⟩
        · obtain ⟨d2, g1, g2⟩ := run_known hr h0
          obtain ⟨d3, g3, g4⟩ := i1 d2 g1
          exact ⟨d3, g3, compatible_trans g2 g4⟩
        · rcases List.mem_cons.mp hf with rfl | hf
          · obtain ⟨d3, g3, g4⟩ := i1 d1 k1
            exact ⟨d3, g3, factorKind_compatible k2 g4⟩
          · exact i2 f hf

theorem sessions_kinds {t : Torch} {s : Space} {pre : Option Prebuilt} {fs ls os : ℕ} (runs : List (List Sampler))
    (hd : ∀ r ∈ runs, ∀ d ∈ r, Draws d) : ∀ (st st' : Study) (l : List Finished),
    sessions (trialConfig t s pre fs ls os) runs st = (.ok l, st') →
    (∀ d, st .schedFactor = some d → (∃ d', st' .schedFactor = some d' ∧ d.compatible d' = true)) ∧
    (∀ f ∈ l, ∃ d', st' .schedFactor = some d' ∧ factorKind f.config.scheduler d') := by
  induction runs with
  | nil =>
    intro st st' l h
    simp only [sessions, Prod.mk.injEq, Except.ok.injEq] at h
    obtain ⟨rfl, rfl⟩ := h
    exact ⟨fun d hd => ⟨d, hd, compatible_refl d⟩, by simp⟩
  | cons r runs ih =>
    intro st st' l h
    rw [sessions] at h
    generalize hr : optimize (trialConfig t s pre fs ls os) r st = q at h
    obtain ⟨q, s1⟩ := q
    cases q with
    | error e => simp at h
    | ok l1 =>
      simp only at h
      generalize ho : sessions (trialConfig t s pre fs ls os) runs s1 = r2 at h
      obtain ⟨r2, s2⟩ := r2
      cases r2 with
      | error e => simp at h
      | ok l2 =>
        simp only [Prod.mk.injEq, Except.ok.injEq] at h
        obtain ⟨rfl, rfl⟩ := h
        obtain ⟨i1, i2⟩ := ih (fun x hx => hd x (by simp [hx])) _ _ _ ho
        obtain ⟨j1, j2⟩ := optimize_kinds r (hd r (by simp)) _ _ _ hr
        refine ⟨fun d0 h0 => ?_, fun f hf => ?_⟩
        · obtain ⟨d2, g1, g2⟩ := j1 d0 h0
          obtain ⟨d3, g3, g4⟩ := i1 d2 g1
          exact ⟨d3, g3, compatible_trans g2 g4⟩
        · rcases List.mem_append.mp hf with hf | hf
          · obtain ⟨d1, k1, k2⟩ := j2 f hf
            obtain ⟨d3, g3, g4⟩ := i1 d1 k1
            exact ⟨d3, g3, factorKind_compatible k2 g4⟩
          · exact i2 f hf

/-- C142: in a study that runs through, either all trials use a scheduler or none does, whatever `sched_mode`
offers. -/
theorem C142_all_or_none {t : Torch} {s : Space} {pre : Option Prebuilt} {fs ls os : ℕ} (runs : List (List Sampler))
    (hd : ∀ r ∈ runs, ∀ d ∈ r, Draws d) {l : List Finished} {st : Study}
    (h : sessions (trialConfig t s pre fs ls os) runs newStudy = (.ok l, st)) :
    ∀ f ∈ l, ∀ f' ∈ l, f.config.scheduler.isSome = f'.config.scheduler.isSome := by
  intro f hf f' hf'
  obtain ⟨_, h2⟩ := sessions_kinds runs hd _ _ _ h
  obtain ⟨d, e1, k1⟩ := h2 f hf
  obtain ⟨d', e2, k2⟩ := h2 f' hf'
  rw [e1] at e2
  obtain rfl := Option.some.inj e2
  exact factorKind_same k1 k2

/-- Some value of a distribution. -/
def pick : Dist → Value
  | .categorical c => c.headD .none
  | .int lo _ => .int lo
  | .float _ hi => .real hi

theorem pick_mem (d : Dist) (h : d.valid = true) : d.mem (pick d) := by
  cases d with
  | categorical c =>
    cases c with
    | nil => simp [Dist.valid] at h
    | cons x xs => simp [Dist.mem, pick]
  | int lo hi => exact ⟨lo, rfl, le_refl _, by simpa [Dist.valid] using h⟩
  | float lo hi => exact ⟨hi, rfl, by simpa [Dist.valid] using h, le_refl _⟩

/-- A sampler that draws the scheduler mode `m`. -/
def pickMode (s : Space) (m : Option String) : Sampler := fun p d =>
  if p = .schedMode ∧ d = .categorical (s.schedMode.map modeValue) then modeValue m else pick d

theorem pickMode_draws {s : Space} {m : Option String} (hm : m ∈ s.schedMode) : Draws (pickMode s m) := by
  intro p d hd
  unfold pickMode
  split_ifs with h
  · rw [h.2]
    exact List.mem_map.mpr ⟨m, hm, rfl⟩
  · exact pick_mem d hd

theorem run_weak {A : Type} {D : Param → Dist} {ans : Param → Dist → Value → Prop} {Q : Except PyErr A → Prop}
    {draw : Sampler} (hd : Draws draw) (ha : ∀ (p : Param) (d : Dist), ans p d (draw p d)) (g : Prog A)
    (hg : Fits D ans Q g) (st : TrialState) :
    Q (g.run draw st).1 ∨ (g.run draw st).1 = .error .valueError := by
  induction g generalizing st with
  | ret a => exact Or.inl hg
  | raise e => exact Or.inl hg
  | suggest p d k ih =>
    obtain ⟨h1, _, h3⟩ := hg
    have key := fun st => ih _ (h3 _ (hd p d h1) (ha p d)) st
    simp only [Prog.run]
    rw [if_neg (by simp [h1])]
    cases hk : st.known p with
    | none => exact key _
    | some d' =>
      simp only
      split_ifs
      · exact Or.inr rfl
      · exact key _

/-- The answers of a sampler that draws the mode `m`. -/
def drawsMode (s : Space) (m : Option String) : Param → Dist → Value → Prop := fun p d v =>
  p = .schedMode → d = .categorical (s.schedMode.map modeValue) → v = modeValue m

theorem modeValue_inj {a b : Option String} (h : modeValue a = modeValue b) : a = b := by
  cases a <;> cases b <;> simp_all [modeValue]

/-- C142 fails when `sched_mode` mixes None with a mode (the documented way to search with and without
a scheduler): a first trial without and a second one with a scheduler abort the study with ValueError. -/
theorem C142_violation_mixed_modes {t : Torch} {s : Space} (ok : SpaceOk t s) (hr : RangesOk s)
    {pre : Option Prebuilt} (hp : ModelOk pre) (h0 : none ∈ s.schedMode) {m : String} (hm : some m ∈ s.schedMode)
    (fs ls os : ℕ) :
    ∃ d1 d2 st, Draws d1 ∧ Draws d2 ∧
      optimize (trialConfig t s pre fs ls os) [d1, d2] newStudy = (.error .valueError, st) := by
  have hdr : ∀ {x}, x ∈ s.schedMode → Draws (pickMode s x) := pickMode_draws
  have hans : ∀ x (p : Param) (d : Dist), drawsMode s x p d (pickMode s x p d) := by
    rintro x p d rfl rfl
    simp [pickMode]
  have hfit : ∀ x : Option String, (x.isSome = true → RangesOk s) →
      Fits (kindOf s x.isSome) (drawsMode s x) Succeeds (trialConfig t s pre fs ls os) := fun x hx =>
    fits_trialConfig_of ok (fun p hpp => by
      obtain ⟨n, nodes, latent, h⟩ := hp p hpp
      exact fits_prebuilt ok h) hx (fun y hy h => by rw [modeValue_inj (h rfl rfl)])
  obtain ⟨⟨c1, hc1⟩, _⟩ := run_fits (hdr h0) (hans none) _ (hfit none (by simp)) ⟨newStudy, []⟩
    (fun p d h => by simp [newStudy] at h)
  generalize hrun : (trialConfig t s pre fs ls os).run (pickMode s none) ⟨newStudy, []⟩ = r at hc1
  obtain ⟨r, s1⟩ := r
  obtain rfl : r = .ok c1 := hc1
  have h2 := run_weak (hdr hm) (hans (some m)) _ (hfit (some m) fun _ => hr) ⟨s1.known, []⟩
  generalize hrun2 : (trialConfig t s pre fs ls os).run (pickMode s (some m)) ⟨s1.known, []⟩ = r at h2
  obtain ⟨r, s2⟩ := r
  refine ⟨pickMode s none, pickMode s (some m), s2.known, hdr h0, hdr hm, ?_⟩
  have hopt : ∀ r', r' = r → optimize (trialConfig t s pre fs ls os) [pickMode s none, pickMode s (some m)] newStudy
      = (r'.map fun c => [⟨c1, s1.params⟩, ⟨c, s2.params⟩], s2.known) := by
    rintro r' rfl
    rw [optimize, hrun]
    simp only
    rw [optimize, hrun2]
    cases r' <;> rfl
  rw [hopt r rfl]
  rcases h2 with ⟨c2, hc2⟩ | hc2
  · exfalso
    obtain rfl : r = .ok c2 := hc2
    obtain ⟨_, g1, _⟩ := trialConfig_ok (hdr h0) hrun
    obtain ⟨_, g2, _⟩ := trialConfig_ok (hdr hm) hrun2
    have hs : sessions (trialConfig t s pre fs ls os) [[pickMode s none, pickMode s (some m)]] newStudy
        = (.ok [⟨c1, s1.params⟩, ⟨c2, s2.params⟩], s2.known) := by
      rw [sessions, hopt _ rfl]
      rfl
    have hall := C142_all_or_none _ (by
      intro x hx d hd
      simp only [List.mem_singleton] at hx
      subst hx
      simp only [List.mem_cons, List.not_mem_nil, or_false] at hd
      rcases hd with rfl | rfl
      · exact hdr h0
      · exact hdr hm) hs ⟨c1, s1.params⟩ (by simp) ⟨c2, s2.params⟩ (by simp)
    have k : ∀ {d study st' c x}, x = none ∨ x = some m → d = pickMode s x →
        (trialConfig t s pre fs ls os).run d ⟨study, []⟩ = (.ok c, st') → c.scheduler.isSome = x.isSome := by
      intro d study st' c x hx hdx hrun
      subst hdx
      have hmem : x ∈ s.schedMode := by rcases hx with rfl | rfl <;> assumption
      have hrun' : ((modelProg t s pre fs ls os).bind fun model => (initOptimizer t s).bind fun opt =>
          (initScheduler s).bind fun sched => (initLossFunction t s).bind fun loss =>
          suggestNat .nEpochs s.nEpochs fun epochs => suggestNat .batchSize s.batchSize fun batch =>
            .ret ⟨model, opt, sched, loss, epochs, batch⟩).run (pickMode s x) ⟨study, []⟩ = (.ok c, st') := hrun
      obtain ⟨_, q1, _, w1⟩ := run_bind_ok hrun'
      obtain ⟨_, q2, _, w2⟩ := run_bind_ok w1
      obtain ⟨sc, q3, w3, w4⟩ := run_bind_ok w2
      obtain ⟨_, q4, _, w5⟩ := run_bind_ok w4
      obtain ⟨_, _, q5, w6, _, _⟩ := suggestNat_ok (hdr hmem) w5
      obtain ⟨_, _, q6, w7, _, _⟩ := suggestNat_ok (hdr hmem) w6
      simp only [Prog.run, Prod.mk.injEq, Except.ok.injEq] at w7
      obtain ⟨_, _, w8⟩ := run_suggest_ok w3
      have e : pickMode s x .schedMode (.categorical (s.schedMode.map modeValue)) = modeValue x := by simp [pickMode]
      rw [e] at w8
      rw [← w7.1]
      have w9 := initScheduler_ok (hdr hmem) w3
      rcases hx with rfl | rfl
      · obtain ⟨_, _, w10⟩ := run_suggest_ok w8
        obtain ⟨_, _, w11⟩ := run_suggest_ok w10
        obtain ⟨_, _, w12⟩ := run_suggest_ok w11
        simp only [Prog.run, Prod.mk.injEq, Except.ok.injEq] at w12
        rw [← w12.1]
        rfl
      · obtain ⟨_, _, _, _, w10, _, _⟩ := suggestFloat_ok (hdr hmem) w8
        obtain ⟨_, _, _, _, w11, _, _⟩ := suggestInt_ok (hdr hmem) w10
        obtain ⟨_, _, _, _, w12, _, _⟩ := suggestInt_ok (hdr hmem) w11
        split_ifs at w12
        · simp [Prog.run] at w12
        · simp [Prog.run] at w12
        · simp only [Prog.run, Prod.mk.injEq, Except.ok.injEq] at w12
          rw [← w12.1]
          rfl
    simp only [k (Or.inl rfl) rfl hrun, k (Or.inr rfl) rfl hrun2] at hall
    simp at hall
  · obtain rfl : r = .error .valueError := hc2
    rfl

/-- C142 fails for a stored study that is continued with other choices, for instance other `nodes`: the first
trial of the continued run raises ValueError, whatever it draws. -/
theorem C142_violation_changed_choices {t : Torch} {s s' : Space} (ok : SpaceOk t s) (hn : s'.nodes ≠ s.nodes)
    {d1 : Sampler} (h1 : Draws d1) (d2 : Sampler) {fs ls os fs' ls' os' : ℕ}
    {l : List Finished} {st : Study}
    (h : optimize (trialConfig t s none fs ls os) [d1] newStudy = (.ok l, st)) :
    ∃ st', optimize (trialConfig t s' none fs' ls' os') [d2] st = (.error .valueError, st') := by
  rw [optimize] at h
  generalize hr : (trialConfig t s none fs ls os).run d1 ⟨newStudy, []⟩ = r at h
  obtain ⟨r, s1⟩ := r
  cases r with
  | error e => simp at h
  | ok c =>
    simp only [optimize, Prod.mk.injEq, Except.ok.injEq] at h
    obtain ⟨_, rfl⟩ := h
    have hr' : ((initOnetModel t s fs ls os).bind fun model => (initOptimizer t s).bind fun opt =>
        (initScheduler s).bind fun sched => (initLossFunction t s).bind fun loss =>
        suggestNat .nEpochs s.nEpochs fun epochs => suggestNat .batchSize s.batchSize fun batch =>
          .ret ⟨model, opt, sched, loss, epochs, batch⟩).run d1 ⟨newStudy, []⟩ = (.ok c, s1) := hr
    obtain ⟨net, q1, w1, w2⟩ := run_bind_ok hr'
    obtain ⟨o, _, q2, w3, _, w4⟩ := suggestNat_ok h1 w1
    obtain ⟨d, g1, g2⟩ := run_known (p := .latent) (d := .categorical (s.nodes.map .nat)) w3
      (by rw [w4]; simp)
    obtain ⟨d', g3, g4⟩ := run_known w2 g1
    have hd' : d' = .categorical (s.nodes.map .nat) := by
      have := compatible_trans g2 g4
      cases d' <;> simp_all [Dist.compatible]
    have hne : (Dist.categorical (s.nodes.map .nat)).compatible (.categorical (s'.nodes.map .nat)) = false := by
      simp only [Dist.compatible, decide_eq_false_iff_not]
      intro he
      exact hn ((List.map_injective_iff.mpr fun a b hab => by injection hab) he).symm
    have hrun : (trialConfig t s' none fs' ls' os').run d2 ⟨s1.known, []⟩ = (.error .valueError, ⟨s1.known, []⟩) := by
      simp only [trialConfig, initOnetModel, suggestNat, Prog.bind, Prog.run]
      split_ifs
      · rfl
      · rw [g3, hd']
        simp only
        rw [if_pos hne]
    rw [optimize, hrun]
    exact ⟨_, rfl⟩

/-! ### C143: schedulers -/

/-- C143: the scheduler a trial trains with has a mode and values that `ReduceLROnPlateau` accepts, within
the ranges of the search space. -/
theorem C143_scheduler_partial {draw : Sampler} (hd : Draws draw) {t : Torch} {s : Space} {pre : Option Prebuilt}
    {fs ls os : ℕ} {study : Study} {st' : TrialState} {c : Config} {x : SchedulerChoice}
    (h : (trialConfig t s pre fs ls os).run draw ⟨study, []⟩ = (.ok c, st')) (hx : c.scheduler = some x) :
    some x.mode ∈ s.schedMode ∧ (x.mode = "min" ∨ x.mode = "max") ∧ x.factor < 1 ∧
      s.schedFactor.1 ≤ x.factor ∧ x.factor ≤ s.schedFactor.2 ∧
      s.schedPatience.1 ≤ x.patience ∧ x.patience ≤ s.schedPatience.2 ∧
      s.schedCooldown.1 ≤ x.cooldown ∧ x.cooldown ≤ s.schedCooldown.2 := by
  have hr' : ((modelProg t s pre fs ls os).bind fun model => (initOptimizer t s).bind fun opt =>
      (initScheduler s).bind fun sched => (initLossFunction t s).bind fun loss =>
      suggestNat .nEpochs s.nEpochs fun epochs => suggestNat .batchSize s.batchSize fun batch =>
        .ret ⟨model, opt, sched, loss, epochs, batch⟩).run draw ⟨study, []⟩ = (.ok c, st') := h
  obtain ⟨_, q1, _, w1⟩ := run_bind_ok hr'
  obtain ⟨_, q2, _, w2⟩ := run_bind_ok w1
  obtain ⟨sc, q3, w3, w4⟩ := run_bind_ok w2
  obtain ⟨_, q4, _, w5⟩ := run_bind_ok w4
  obtain ⟨_, _, q5, w6, _, _⟩ := suggestNat_ok hd w5
  obtain ⟨_, _, q6, w7, _, _⟩ := suggestNat_ok hd w6
  simp only [Prog.run, Prod.mk.injEq, Except.ok.injEq] at w7
  rw [← w7.1] at hx
  obtain rfl : sc = some x := hx
  obtain ⟨_, g1, g2, _⟩ := initScheduler_ok hd w3
  obtain ⟨a1, a2, a3⟩ := g2 x rfl
  exact ⟨g1, a2, a1, a3⟩

/-- C143 fails for a factor range that reaches one, as the default range (0.1, 1.0) does: a trial that draws the
upper end is aborted with ValueError. -/
theorem C143_violation_factor_one {t : Torch} {s : Space} (ok : SpaceOk t s) {pre : Option Prebuilt} (hp : ModelOk pre)
    {m : String} (hm : some m ∈ s.schedMode) (h1 : s.schedFactor.1 ≤ s.schedFactor.2) (h2 : 1 ≤ s.schedFactor.2)
    (h3 : s.schedPatience.1 ≤ s.schedPatience.2) (h4 : s.schedCooldown.1 ≤ s.schedCooldown.2) (fs ls os : ℕ) :
    ∃ d st, Draws d ∧ optimize (trialConfig t s pre fs ls os) [d] newStudy = (.error .valueError, st) := by
  have hans : ∀ (p : Param) (d : Dist), (drawsMode s (some m) p d (pickMode s (some m) p d) ∧
      (p = .schedFactor → pickMode s (some m) p d = pick d)) := by
    refine fun p d => ⟨?_, ?_⟩
    · rintro rfl rfl
      simp [pickMode]
    · rintro rfl
      simp [pickMode]
  have hsched : Fits (kindOf s true) (fun p d v => drawsMode s (some m) p d v ∧ (p = .schedFactor → v = pick d))
      (fun r => r = .error .valueError) (initScheduler s) := by
    refine ⟨by simpa [Dist.valid] using ok.modes.1, compatible_refl _, fun v hv hav => ?_⟩
    obtain rfl := hav.1 rfl rfl
    refine fits_float (compatible_refl _) h1 fun f _ _ hf => fits_int (compatible_refl _) h3 fun _ _ _ =>
      fits_int (compatible_refl _) h4 fun _ _ _ => ?_
    have hf' := hf.2 rfl
    simp only [pick, Value.real.injEq] at hf'
    rw [if_pos (by rw [hf']; exact h2)]
    rfl
  have hfit : Fits (kindOf s true) (fun p d v => drawsMode s (some m) p d v ∧ (p = .schedFactor → v = pick d))
      (fun r => r = .error .valueError) (trialConfig t s pre fs ls os) := by
    refine fits_bind (P := Succeeds) _ _ ?_ (fun _ _ => fits_bind (P := Succeeds) _ _ (fits_initOptimizer ok)
      (fun _ _ => fits_bind (P := fun r => r = .error .valueError) _ _ hsched
        (fun _ h => by simp at h) fun e he => by simpa using he)
        fun _ h => by obtain ⟨a, ha⟩ := h; cases ha) fun _ h => by obtain ⟨a, ha⟩ := h; cases ha
    cases pre with
    | none => exact fits_initOnetModel ok
    | some p =>
      obtain ⟨n, nodes, latent, h⟩ := hp p rfl
      exact fits_prebuilt ok h
  obtain ⟨g1, _⟩ := run_fits (pickMode_draws hm) hans _ hfit ⟨newStudy, []⟩ (fun p d h => by simp [newStudy] at h)
  generalize hrun : (trialConfig t s pre fs ls os).run (pickMode s (some m)) ⟨newStudy, []⟩ = r at g1
  obtain ⟨r, s1⟩ := r
  obtain rfl : r = .error .valueError := g1
  refine ⟨_, s1.known, pickMode_draws hm, ?_⟩
  rw [optimize, hrun]

/-! ### C140: incomplete prebuilt dictionaries -/

/-- C140 fails for a `prebuilt` dictionary with fewer node counts than layers: every trial raises IndexError. -/
theorem C140_violation_few_nodes {t : Torch} {s : Space} (ok : SpaceOk t s) {pre : Prebuilt} {n : ℕ} {nodes : List ℕ}
    (hn : pre.maxLayers .branch = some n) (hl : pre.nodes .branch = some nodes) (hlt : nodes.length < n)
    {draw : Sampler} (hd : Draws draw) (fs ls os : ℕ) :
    ∃ st, optimize (trialConfig t s (some pre) fs ls os) [draw] newStudy = (.error .indexError, st) := by
  have hloop : ∀ todo i inDim layers, nodes.length < i + todo → i ≤ nodes.length →
      Fits (kindOf s false) (fun _ _ _ => True) (fun r => r = .error .indexError)
        (prebuiltLayers t s pre .branch nodes todo i inDim layers) := by
    intro todo
    induction todo with
    | zero => intro i inDim layers h1 h2; omega
    | succ todo ih =>
      intro i inDim layers h1 h2
      simp only [prebuiltLayers]
      by_cases hi : i < nodes.length
      · rw [List.getElem?_eq_getElem hi]
        exact fits_hiddenTail ok fun tail => ih _ _ _ (by omega) (by omega)
      · rw [List.getElem?_eq_none (by omega)]
        rfl
  have hnn : Fits (kindOf s false) (fun _ _ _ => True) (fun r => r = .error .indexError)
      (initPrebuiltNnModel t s pre fs .branch) := by
    simp only [initPrebuiltNnModel, hn, hl, getKey]
    exact hloop _ _ _ _ (by omega) (by omega)
  have hfit : Fits (kindOf s false) (fun _ _ _ => True) (fun r => r = .error .indexError)
      (trialConfig t s (some pre) fs ls os) :=
    fits_bind (P := fun r => r = .error .indexError) _ _
      (fits_bind (P := fun r => r = .error .indexError) _ _ hnn (fun _ h => by simp at h)
        fun e he => by simpa using he) (fun _ h => by simp at h) fun e he => by simpa using he
  obtain ⟨g1, _⟩ := run_fits hd (fun _ _ => trivial) _ hfit ⟨newStudy, []⟩ (fun p d h => by simp [newStudy] at h)
  generalize hrun : (trialConfig t s (some pre) fs ls os).run draw ⟨newStudy, []⟩ = r at g1
  obtain ⟨r, s1⟩ := r
  obtain rfl : r = .error .indexError := g1
  exact ⟨s1.known, by rw [optimize, hrun]⟩

/-- C140: a `prebuilt` dictionary without the number of branch layers, or without their node counts, makes every trial
raise KeyError. -/
theorem C140_violation_missing_key {t : Torch} {s : Space} {pre : Prebuilt}
    (hn : pre.maxLayers .branch = none ∨ pre.nodes .branch = none)
    (draw : Sampler) (fs ls os : ℕ) :
    optimize (trialConfig t s (some pre) fs ls os) [draw] newStudy = (.error .keyError, newStudy) := by
  have h1 : initPrebuiltNnModel t s pre fs .branch = .raise .keyError := by
    unfold initPrebuiltNnModel
    cases ha : pre.maxLayers .branch with
    | none => rfl
    | some n =>
      rcases hn with hn | hn
      · rw [ha] at hn; cases hn
      · simp [getKey, hn]
  have h2 : trialConfig t s (some pre) fs ls os = .raise .keyError := by
    simp only [trialConfig, initPrebuiltOnetModel, h1, Prog.bind]
  rw [optimize, h2]
  rfl

/-! ### C144: the rows used by the tuner -/

open Discrete1.Ml in
/-- C144: with the fractions 0.6 and 0.2 that the documentation calls the defaults, the tuner never touches the test
rows of a file written by `deeponet_memmap`. -/
theorem C144_documented_fractions_partial (perm : ℕ → List ℕ) (hp : PermutesRows perm) (n batch : ℕ) (hn : 3 ≤ n)
    (hb : 0 < batch) {train val test idx : List ℕ} (hparts : partsOf perm n = .ok (train, val, test))
    (hidx : splitIndex (trainTestSplit perm) n = .ok idx)
    {a b : Dataset} (hds : createMemmapDatasets n batch (6 / 10 : ℚ) (2 / 10) = .ok (a, b)) :
    ∀ r s, (Serves a r ∨ Serves b r) → idx[r]? = some s → s ∈ train ∨ s ∈ val := by
  obtain ⟨tr, va, te, h1, _, h3, h4, h5⟩ := parts_ok perm hp n hn
  rw [hparts] at h1
  obtain ⟨rfl, rfl, rfl⟩ : train = tr ∧ val = va ∧ test = te := by
    have := Except.ok.inj h1
    exact ⟨congrArg Prod.fst this, congrArg (fun p => p.2.1) this, congrArg (fun p => p.2.2) this⟩
  rw [splitIndex_eq, hparts] at hidx
  obtain rfl : train ++ val ++ test = idx := Except.ok.inj hidx
  have hds' : (if min (3 * n / 5) (4 * n / 5 - 3 * n / 5) < 1 then (.error .valueError : Except PyErr (Dataset × Dataset))
      else mkDataset n (min batch (min (3 * n / 5) (4 * n / 5 - 3 * n / 5))) 0 (some (3 * n / 5)) >>= fun a =>
        mkDataset n (min batch (min (3 * n / 5) (4 * n / 5 - 3 * n / 5))) (3 * n / 5) (some (4 * n / 5)) >>= fun b =>
          .ok (a, b)) = .ok (a, b) := by
    rw [← hds]
    unfold createMemmapDatasets
    rw [floor_train, floor_val]
    split_ifs <;> simp_all <;> rfl
  split_ifs at hds' with hmin
  obtain ⟨a', a1, a2, _⟩ := serves_within n (min batch (min (3 * n / 5) (4 * n / 5 - 3 * n / 5))) 0 (3 * n / 5)
    (by omega) (by omega) (by omega) (by omega)
  obtain ⟨b', b1, b2, _⟩ := serves_within n (min batch (min (3 * n / 5) (4 * n / 5 - 3 * n / 5))) (3 * n / 5)
    (4 * n / 5) (by omega) (by omega) (by omega) (by omega)
  rw [a1, b1] at hds'
  obtain ⟨rfl, rfl⟩ : a' = a ∧ b' = b := by
    have := Except.ok.inj hds'
    exact ⟨congrArg Prod.fst this, congrArg Prod.snd this⟩
  intro r s hs g
  have hr : r < train.length + val.length := by
    rcases hs with hs | hs
    · have := a2 r hs; omega
    · have := b2 r hs; omega
  rw [List.getElem?_append_left (by rw [List.length_append]; omega)] at g
  exact List.mem_append.mp (List.mem_of_getElem? g)

theorem floor_default_train (n : ℕ) : ⌊(8 / 10 : ℚ) * (n : ℚ)⌋.toNat = 4 * n / 5 := by
  have := floor_val n
  norm_num at this ⊢
  exact this

open Discrete1.Ml in
/-- C144 fails for the fractions the code uses by default (0.8 and 0.2): with three samples or more the tuner trains
on validation rows and validates on test rows of the file, all of its validation rows being test rows. -/
theorem C144_violation_default_fractions (perm : ℕ → List ℕ) (hp : PermutesRows perm) (n : ℕ) (hn : 3 ≤ n) :
    ∃ train val test idx a b, partsOf perm n = .ok (train, val, test) ∧
      splitIndex (trainTestSplit perm) n = .ok idx ∧
      createMemmapDatasets n 1 (8 / 10 : ℚ) (2 / 10) = .ok (a, b) ∧
      (∃ r s, Serves a r ∧ idx[r]? = some s ∧ s ∈ val) ∧
      (∃ r s, Serves b r ∧ idx[r]? = some s ∧ s ∈ test) ∧
      ∀ r s, Serves b r → idx[r]? = some s → s ∈ test := by
  obtain ⟨tr, va, te, h1, hperm, h3, h4, h5⟩ := parts_ok perm hp n hn
  have hone : min 1 (min (4 * n / 5) (n - 4 * n / 5)) = 1 := by omega
  have hfloor : ⌊(8 / 10 + 2 / 10 : ℚ) * (n : ℚ)⌋.toNat = n := by
    norm_num
  obtain ⟨a, a1, _, a2⟩ := serves_within n 1 0 (4 * n / 5) (by omega) (by omega) (by omega) (by omega)
  obtain ⟨b, b1, b2, b3⟩ := serves_within n 1 (4 * n / 5) n (by omega) (by omega) (by omega) (by omega)
  have hds : createMemmapDatasets n 1 (8 / 10 : ℚ) (2 / 10) = .ok (a, b) := by
    unfold createMemmapDatasets
    rw [floor_default_train, hfloor]
    simp only [hone]
    rw [if_neg (by omega), a1, b1]
    rfl
  have htest : ∀ r s, 4 * n / 5 ≤ r → (tr ++ va ++ te)[r]? = some s → s ∈ te := by
    intro r s hr g
    rw [List.getElem?_append_right (by rw [List.length_append]; omega)] at g
    exact List.mem_of_getElem? g
  have hlen : (tr ++ va ++ te).length = n := by rw [hperm.length_eq, List.length_range]
  refine ⟨tr, va, te, tr ++ va ++ te, a, b, h1, by rw [splitIndex_eq, h1]; rfl, hds,
    ⟨tr.length, va[0]'(by omega), a2 rfl _ (Nat.zero_le _) (by omega), ?_, List.getElem_mem _⟩,
    ⟨4 * n / 5, (tr ++ va ++ te)[4 * n / 5]'(by omega), b3 rfl _ le_rfl (by omega),
      List.getElem?_eq_getElem (by omega), htest _ _ le_rfl (List.getElem?_eq_getElem (by omega))⟩,
    fun r s hs g => htest r s (b2 r hs).1 g⟩
  rw [List.getElem?_append_left (by rw [List.length_append]; omega),
    List.getElem?_append_right le_rfl, Nat.sub_self, List.getElem?_eq_getElem (by omega)]

/-! ### Examples -/

/-- The names of `torch` the defaults use. -/
def exTorch : Torch where
  activation := fun a => a ∈ ["ReLU", "GELU", "Tanh"]
  optimizer := fun a => a ∈ ["Adam", "SGD"]
  loss := fun a => a ∈ ["MSELoss", "L1Loss", "SmoothL1Loss"]

theorem exDefaultSpace : SpaceOk exTorch Space.default where
  layers := by intro side; cases side <;> decide
  nodes := by decide
  activations := by decide +kernel
  dropout := by decide +kernel
  epochs := by decide
  batch := by decide
  optimizer := by decide +kernel
  learningRate := by decide +kernel
  weightDecay := by decide +kernel
  loss := by decide +kernel
  modes := ⟨by decide, fun m hm => by simp [Space.default] at hm⟩

/-- The defaults with schedulers "min" and None. -/
def exMixedSpace : Space := { Space.default with schedMode := [none, some "min"], schedFactor := (1 / 10, 9 / 10) }

theorem exMixedOk : SpaceOk exTorch exMixedSpace :=
  { exDefaultSpace with modes := ⟨by decide, fun m hm => by simp [exMixedSpace] at hm; exact Or.inl hm⟩ }

theorem exRanges : RangesOk exMixedSpace where
  factor := by decide +kernel
  patience := by decide
  cooldown := by decide

/-- A sampler. -/
def exSampler : Sampler := fun _ d => pick d

theorem exSampler_draws : Draws exSampler := fun _ d h => pick_mem d h

theorem no_prebuilt : ModelOk none := fun p h => by cases h

example := C142_studies_run_partial exDefaultSpace no_prebuilt (Or.inl (by decide)) 8 2 16
  [[exSampler, exSampler], [exSampler]] (by
    intro r hr d hd
    simp only [List.mem_cons, List.not_mem_nil, or_false] at hr
    rcases hr with rfl | rfl <;> simp only [List.mem_cons, List.not_mem_nil, or_false, or_self] at hd <;>
      subst hd <;> exact exSampler_draws)

example := C142_violation_mixed_modes exMixedOk exRanges no_prebuilt (by decide) (m := "min") (by decide) 8 2 16

/-- A trial of the default search. -/
theorem exTrial : ∃ c st, (trialConfig exTorch Space.default none 8 2 16).run exSampler ⟨newStudy, []⟩ = (.ok c, st) := by
  obtain ⟨⟨c, hc⟩, _⟩ := run_fits (D := kindOf Space.default false) (ans := fun _ _ _ => True) exSampler_draws
    (fun _ _ => trivial) _ (fits_trialConfig_of exDefaultSpace (pre := none) (fs := 8) (ls := 2) (os := 16)
      (by simp) (by simp) (fun m hm _ => by simp [Space.default] at hm; simp [hm])) ⟨newStudy, []⟩
    (fun p d h => by simp [newStudy] at h)
  exact ⟨c, _, Prod.ext hc rfl⟩

/-- Weights for the example. -/
def exWeights : Weights ℚ where
  weight := fun _ _ _ => 1
  bias := fun _ _ => 1
  act := fun _ x => x.map fun v => max v 0
  mask := fun _ _ => 1

example : ∃ c out, Onet.forward exWeights exWeights (fun _ _ => 1) c.model (List.replicate 8 (1 : ℚ)) [1, 2] = .ok out ∧
    out.length = 16 ∧ (c : Config).model.latent ∈ [64, 128, 256] := by
  obtain ⟨c, st, h⟩ := exTrial
  obtain ⟨h1, out, h2, h3, _⟩ := C140_networks exSampler_draws h exWeights exWeights (by simp [exWeights])
    (by simp [exWeights]) (fun _ _ => 1) (List.replicate 8 (1 : ℚ)) [1, 2] (by simp) rfl
  exact ⟨c, out, h2, h3, h1⟩

example : ∃ c st, ReportedSettings st Space.default c := by
  obtain ⟨c, st, h⟩ := exTrial
  exact ⟨c, st.params, (C141_reported exSampler_draws h).2.2.2.2⟩

example : ∃ c st, (trialConfig exTorch Space.default none 8 2 16).run exSampler ⟨newStudy, []⟩ = (.ok c, st) ∧
    (st.params.map Prod.fst).Nodup := by
  obtain ⟨c, st, h⟩ := exTrial
  exact ⟨c, st, h, (C141_parameters_determine h h).1⟩

example : ∃ st st', optimize (trialConfig exTorch { Space.default with nodes := [32] } none 8 2 16) [exSampler] st
    = (.error .valueError, st') := by
  obtain ⟨c, st, h⟩ := exTrial
  have ho : optimize (trialConfig exTorch Space.default none 8 2 16) [exSampler] newStudy
      = (.ok [⟨c, st.params⟩], st.known) := by
    rw [optimize, h]; rfl
  obtain ⟨st', h'⟩ := C142_violation_changed_choices exDefaultSpace (s' := { Space.default with nodes := [32] })
    (by decide) exSampler_draws exSampler (fs' := 8) (ls' := 2) (os' := 16) ho
  exact ⟨_, st', h'⟩

/-- The default ranges with a scheduler. -/
def exPlateauSpace : Space := { Space.default with schedMode := [some "min"] }

theorem exPlateauOk : SpaceOk exTorch exPlateauSpace :=
  { exDefaultSpace with modes := ⟨by decide, fun m hm => by simp [exPlateauSpace] at hm; exact Or.inl hm⟩ }

example := C143_violation_factor_one exPlateauOk no_prebuilt (m := "min") (by decide) (by decide +kernel)
  (by decide +kernel) (by decide) (by decide) 8 2 16

/-- A prebuilt dictionary. -/
def exPrebuilt : Prebuilt where
  maxLayers := fun _ => some 2
  nodes := fun _ => some [16, 8]
  onetOutDim := some 4

theorem exPrebuiltOk : PrebuiltOk exPrebuilt (fun _ => 2) (fun _ => [16, 8]) 4 :=
  ⟨fun _ => rfl, fun _ => rfl, fun _ => by decide, rfl⟩

theorem exPrebuiltModel : ModelOk (some exPrebuilt) := fun p h => by
  obtain rfl := Option.some.inj h
  exact ⟨_, _, _, exPrebuiltOk⟩

theorem exPrebuiltTrial : ∃ c st, (trialConfig exTorch exMixedSpace (some exPrebuilt) 8 2 16).run
    (pickMode exMixedSpace (some "min")) ⟨newStudy, []⟩ = (.ok c, st) := by
  obtain ⟨⟨c, hc⟩, _⟩ := run_fits (D := kindOf exMixedSpace true) (ans := drawsMode exMixedSpace (some "min"))
    (draw := pickMode exMixedSpace (some "min"))
    (pickMode_draws (by decide)) (fun p d => by rintro rfl rfl; simp [pickMode]) _
    (fits_trialConfig_of exMixedOk (pre := some exPrebuilt) (fs := 8) (ls := 2) (os := 16)
      (fun p hp => by obtain rfl := Option.some.inj hp; exact fits_prebuilt exMixedOk exPrebuiltOk) (fun _ => exRanges)
      (fun m hm h => by rw [modeValue_inj (h rfl rfl)]; rfl)) ⟨newStudy, []⟩
    (fun p d h => by simp [newStudy] at h)
  exact ⟨c, _, Prod.ext hc rfl⟩

example : ∃ c : Config, c.model.latent = 4 := by
  obtain ⟨c, st, h⟩ := exPrebuiltTrial
  exact ⟨c, (C140_prebuilt_networks (pickMode_draws (by decide)) exPrebuiltOk h exWeights exWeights
    (by simp [exWeights]) (by simp [exWeights]) (fun _ _ => 1) (List.replicate 8 (1 : ℚ)) [1, 2] (by simp) rfl).1⟩

example := C140_violation_missing_key (t := exTorch) (s := Space.default)
  (pre := { exPrebuilt with nodes := fun _ => none }) (Or.inr rfl) exSampler 8 2 16

/-- A row of nine fluxes for a network built for eight. -/
example : ∃ c : Config, c.model.forward exWeights exWeights (fun _ _ => 1) (List.replicate 9 1) [1, 2]
    = .error .runtimeError := by
  obtain ⟨c, st, h⟩ := exTrial
  exact ⟨c, C140_other_rows_rejected exSampler_draws h exWeights exWeights (by simp [exWeights]) _ _ _ (Or.inl (by simp))⟩

example := C140_violation_few_nodes exDefaultSpace (pre := { exPrebuilt with nodes := fun _ => some [16] }) (n := 2)
  rfl rfl (by decide) exSampler_draws 8 2 16

example := C144_violation_default_fractions reversed reversed_permutes 10 (by decide)

example : ∃ c st x, (trialConfig exTorch exMixedSpace (some exPrebuilt) 8 2 16).run
    (pickMode exMixedSpace (some "min")) ⟨newStudy, []⟩ = (.ok c, st) ∧ c.scheduler = some x ∧ x.factor < 1 := by
  obtain ⟨c, st, h⟩ := exPrebuiltTrial
  have hd : Draws (pickMode exMixedSpace (some "min")) := pickMode_draws (by decide)
  obtain ⟨_, hrep, _⟩ := trialConfig_ok hd h
  have hnd := (C141_parameters_determine h h).1
  have hmode : (Param.schedMode, Value.str "min") ∈ st.params := by
    have hr' : ((modelProg exTorch exMixedSpace (some exPrebuilt) 8 2 16).bind fun model =>
        (initOptimizer exTorch exMixedSpace).bind fun opt =>
        (initScheduler exMixedSpace).bind fun sched => (initLossFunction exTorch exMixedSpace).bind fun loss =>
        suggestNat .nEpochs exMixedSpace.nEpochs fun epochs => suggestNat .batchSize exMixedSpace.batchSize fun batch =>
          .ret ⟨model, opt, sched, loss, epochs, batch⟩).run (pickMode exMixedSpace (some "min")) ⟨newStudy, []⟩
        = (.ok c, st) := h
    obtain ⟨_, q1, _, w1⟩ := run_bind_ok hr'
    obtain ⟨_, q2, _, w2⟩ := run_bind_ok w1
    obtain ⟨sc, q3, w3, w4⟩ := run_bind_ok w2
    obtain ⟨_, _, w5⟩ := run_suggest_ok w3
    have e : pickMode exMixedSpace (some "min") .schedMode (.categorical (exMixedSpace.schedMode.map modeValue))
        = .str "min" := by simp [pickMode, modeValue]
    exact run_mem w4 (run_mem w5 (by rw [e]; simp))
  cases hs : c.scheduler with
  | none =>
    exfalso
    have h1 := hrep.scheduler.1
    rw [hs] at h1
    have := List.inj_on_of_nodup_map hnd h1.1 hmode rfl
    simp at this
  | some x => exact ⟨c, st, x, h, hs, (C143_scheduler_partial hd h hs).2.2.1⟩

example : ∃ train val test idx a b, partsOf reversed 10 = .ok (train, val, test) ∧
    Discrete1.Ml.splitIndex (Discrete1.Ml.trainTestSplit reversed) 10 = .ok idx ∧
    Discrete1.Ml.createMemmapDatasets 10 4 (6 / 10 : ℚ) (2 / 10) = .ok (a, b) := by
  obtain ⟨tr, va, te, h1, _⟩ := parts_ok reversed reversed_permutes 10 (by omega)
  obtain ⟨a, a1, _⟩ := serves_within 10 2 0 6 (by omega) (by omega) (by omega) (by omega)
  obtain ⟨b, b1, _⟩ := serves_within 10 2 6 8 (by omega) (by omega) (by omega) (by omega)
  refine ⟨tr, va, te, _, a, b, h1, by rw [splitIndex_eq, h1]; rfl, ?_⟩
  unfold Discrete1.Ml.createMemmapDatasets
  rw [floor_train, floor_val]
  show (Discrete1.Ml.mkDataset 10 2 0 (some 6) >>= fun a =>
    Discrete1.Ml.mkDataset 10 2 6 (some 8) >>= fun b => .ok (a, b)) = _
  rw [a1, b1]
  rfl

end Discrete1.Props
