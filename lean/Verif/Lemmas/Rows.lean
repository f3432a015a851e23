import Verif.Model.Fit
import Verif.Lemmas.Simulation
import Verif.Lemmas.Predict
import Mathlib.Tactic.Ring
import Mathlib.Logic.Equiv.Defs
import Mathlib.Algebra.BigOperators.Ring.Finset

/-!
# Two training sets made of the same rows

`row s` and `row' s` are the rows of the samples of the two sets, in any type. Arrays over the samples agree if they are given
by the row; weights have the same mass if they sum up to the same for each row.
-/

set_option autoImplicit false

namespace CB
open Finset

section
variable {α : Type} (n n' : ℕ) (row row' : ℕ → α)

/-- Arrays over the two sample sets that only depend on the row of the sample. -/
def Agree {β : Type*} (f f' : ℕ → β) : Prop :=
  ∃ P : α → β, (∀ s < n, f s = P (row s)) ∧ ∀ s < n', f' s = P (row' s)

open Classical in
/-- Weights that sum up to the same for each row. -/
def SameMass (g g' : ℕ → ℝ) : Prop :=
  ∀ r, ∑ s ∈ range n, (if row s = r then g s else 0) = ∑ s ∈ range n', if row' s = r then g' s else 0

variable {n n' row row'}

theorem Agree.const {β : Type*} (b : β) : Agree n n' row row' (fun _ => b) (fun _ => b) :=
  ⟨fun _ => b, fun _ _ => rfl, fun _ _ => rfl⟩

theorem Agree.map {β γ : Type*} (F : β → γ) {f f' : ℕ → β} (h : Agree n n' row row' f f') :
    Agree n n' row row' (fun s => F (f s)) (fun s => F (f' s)) := by
  obtain ⟨P, h1, h2⟩ := h
  exact ⟨fun r => F (P r), fun s hs => congrArg F (h1 s hs), fun s hs => congrArg F (h2 s hs)⟩

theorem Agree.map₂ {β γ δ : Type*} (F : β → γ → δ) {f f' : ℕ → β} {g g' : ℕ → γ} (h : Agree n n' row row' f f')
    (k : Agree n n' row row' g g') : Agree n n' row row' (fun s => F (f s) (g s)) (fun s => F (f' s) (g' s)) := by
  obtain ⟨P, h1, h2⟩ := h
  obtain ⟨Q, k1, k2⟩ := k
  exact ⟨fun r => F (P r) (Q r), fun s hs => congr (congrArg F (h1 s hs)) (k1 s hs),
    fun s hs => congr (congrArg F (h2 s hs)) (k2 s hs)⟩

theorem SameMass.mul {g g' f f' : ℕ → ℝ} (hg : SameMass n n' row row' g g') (hf : Agree n n' row row' f f') :
    SameMass n n' row row' (fun s => g s * f s) (fun s => g' s * f' s) := by
  classical
  obtain ⟨P, h1, h2⟩ := hf
  intro r
  have e1 : ∑ s ∈ range n, (if row s = r then g s * f s else 0)
      = (∑ s ∈ range n, if row s = r then g s else 0) * P r := by
    rw [sum_mul]
    refine sum_congr rfl fun s hs => ?_
    split
    · next h => rw [h1 s (mem_range.mp hs), h]
    · rw [zero_mul]
  have e2 : ∑ s ∈ range n', (if row' s = r then g' s * f' s else 0)
      = (∑ s ∈ range n', if row' s = r then g' s else 0) * P r := by
    rw [sum_mul]
    refine sum_congr rfl fun s hs => ?_
    split
    · next h => rw [h2 s (mem_range.mp hs), h]
    · rw [zero_mul]
  have := hg r
  convert congrArg (· * P r) this using 1

theorem SameMass.sum {g g' : ℕ → ℝ} (hg : SameMass n n' row row' g g') :
    ∑ s ∈ range n, g s = ∑ s ∈ range n', g' s := by
  classical
  let T : Finset α := (range n).image row ∪ (range n').image row'
  have e1 : ∑ s ∈ range n, g s = ∑ r ∈ T, ∑ s ∈ range n, if row s = r then g s else 0 := by
    rw [sum_comm]
    refine sum_congr rfl fun s hs => ?_
    rw [sum_ite_eq, if_pos]
    exact mem_union_left _ (mem_image_of_mem _ hs)
  have e2 : ∑ s ∈ range n', g' s = ∑ r ∈ T, ∑ s ∈ range n', if row' s = r then g' s else 0 := by
    rw [sum_comm]
    refine sum_congr rfl fun s hs => ?_
    rw [sum_ite_eq, if_pos]
    exact mem_union_right _ (mem_image_of_mem _ hs)
  rw [e1, e2]
  refine sum_congr rfl fun r _ => ?_
  have := hg r
  convert this using 1

theorem SameMass.binSum {g g' : ℕ → ℝ} (hg : SameMass n n' row row' g g') {codes codes' : ℕ → ℕ}
    (hc : Agree n n' row row' codes codes') : binSum n codes g = binSum n' codes' g' := by
  funext b
  unfold CB.binSum
  have h1 : Agree n n' row row' (fun s => if codes s = b then (1 : ℝ) else 0) (fun s => if codes' s = b then 1 else 0) :=
    hc.map fun c => if c = b then (1 : ℝ) else 0
  have h2 := (hg.mul h1).sum
  simpa only [mul_ite, mul_one, mul_zero] using h2

/-- Sums of arrays of the form weight times something given by the row. -/
theorem SameMass.sum_of {w w' f f' g g' : ℕ → ℝ} (hw : SameMass n n' row row' w w') (hf : Agree n n' row row' f f')
    (hg : ∀ s, g s = w s * f s) (hg' : ∀ s, g' s = w' s * f' s) : ∑ s ∈ range n, g s = ∑ s ∈ range n', g' s := by
  rw [funext hg, funext hg']
  exact (hw.mul hf).sum

theorem SameMass.binSum_of {w w' f f' g g' : ℕ → ℝ} (hw : SameMass n n' row row' w w') {codes codes' : ℕ → ℕ}
    (hc : Agree n n' row row' codes codes') (hf : Agree n n' row row' f f')
    (hg : ∀ s, g s = w s * f s) (hg' : ∀ s, g' s = w' s * f' s) : CB.binSum n codes g = CB.binSum n' codes' g' := by
  rw [funext hg, funext hg']
  exact (hw.mul hf).binSum hc

end

/-- What two sample sets made of the same rows need to have in common besides the total weight of each row. -/
inductive Need
  | mass | each | order

/-- `mass`: nothing else; `each`: the weight of a sample is given by its row; `order`: the second set is a permutation of the
first one and no weight is negative. -/
def Need.holds {α : Type} (need : Need) (n n' : ℕ) (row row' : ℕ → α) (w w' : ℕ → ℝ) : Prop :=
  match need with
  | .mass => True
  | .each => Agree n n' row row' w w'
  | .order => n' = n ∧ (∀ s < n, 0 ≤ w s) ∧ ∃ π : Equiv.Perm ℕ, (∀ s, π s < n ↔ s < n) ∧ (∀ s < n, row' s = row (π s)) ∧
      ∀ s < n, w' s = w (π s)

/-- An estimator whose estimates only depend on the rows, their total weights and what `need` says. -/
structure RowInvariant (E : Estimator) (need : Need) : Prop where
  scale : ∀ {α : Type} {n n' : ℕ} {row row' : ℕ → α} {y y' w w' : ℕ → ℝ}, SameMass n n' row row' w w' →
    Agree n n' row row' y y' → need.holds n n' row row' w w' → E.scale n' y' w' = E.scale n y w
  parameters : ∀ {α : Type} {n n' : ℕ} {row row' : ℕ → α} {y y' w w' p p' : ℕ → ℝ} {codes codes' : ℕ → ℕ} {it : ℕ},
    SameMass n n' row row' w w' → Agree n n' row row' y y' → need.holds n n' row row' w w' →
    Agree n n' row row' codes codes' → Agree n n' row row' p p' →
    E.parameters it n' codes' y' w' p' = E.parameters it n codes y w p
  loss : ∀ {α : Type} {n n' : ℕ} {row row' : ℕ → α} {y y' w w' p p' : ℕ → ℝ}, SameMass n n' row row' w w' →
    Agree n n' row row' y y' → need.holds n n' row row' w w' → Agree n n' row row' p p' →
    E.loss n' p' y' w' = E.loss n p y w
  calibrate : ∀ c c' : FeatureCfg, c'.nFinite = c.nFinite → c'.missingNotLearned = c.missingNotLearned →
    E.calibrate c' = E.calibrate c

section
variable {α : Type} {n n' : ℕ} {row row' : ℕ → α} {y y' w w' : ℕ → ℝ}

theorem inv_globalScale (kind : LinkKind) (hw : SameMass n n' row row' w w') (hy : Agree n n' row row' y y') :
    globalScaleLink kind n' y' w' = globalScaleLink kind n y w := by
  unfold globalScaleLink
  rw [hw.sum, hw.sum_of hy (fun s => mul_comm (y s) (w s)) (fun s => mul_comm (y' s) (w' s))]

theorem inv_squaredLoss {p p' : ℕ → ℝ} (hw : SameMass n n' row row' w w') (hy : Agree n n' row row' y y')
    (hp : Agree n n' row row' p p') : squaredLoss n' p' y' w' = squaredLoss n p y w := by
  unfold squaredLoss
  rw [hw.sum, hw.sum_of (hp.map₂ (fun a b => (a - b) * (a - b)) hy) (fun s => mul_comm _ _) (fun s => mul_comm _ _)]

theorem inv_priorOffset (kind : LinkKind) (scale : Flt ℝ) {q q' : ℕ → Flt ℝ} (hw : SameMass n n' row row' w w')
    (hq : Agree n n' row row' q q') :
    priorOffsetFrom kind scale n' q' w' = priorOffsetFrom kind scale n q w := by
  unfold priorOffsetFrom priorPredMean
  have h1 : ∑ i ∈ range n, (if (q i).isFinite then (q i).getFin * w i else 0)
      = ∑ i ∈ range n', if (q' i).isFinite then (q' i).getFin * w' i else 0 :=
    hw.sum_of (hq.map fun v => if v.isFinite then v.getFin else 0)
      (fun s => by split <;> ring) (fun s => by split <;> ring)
  have h2 : ∑ i ∈ range n, (if (q i).isFinite then w i else 0) = ∑ i ∈ range n', if (q' i).isFinite then w' i else 0 :=
    hw.sum_of (hq.map fun v => if v.isFinite then (1 : ℝ) else 0)
      (fun s => by split <;> ring) (fun s => by split <;> ring)
  rw [h1, h2]

end

theorem poisson_invariant (g : ℝ → ℝ) : RowInvariant (poissonEstimator g) .mass where
  scale hw hy _ := inv_globalScale .log hw hy
  parameters hw hy _ hc hp := by
    funext b
    unfold poissonEstimator poissonCalcParameters poissonPrecalc
    dsimp only
    rw [hw.binSum_of hc hy (fun s => mul_comm _ _) (fun s => mul_comm _ _),
      hw.binSum_of hc (hp.map Real.exp) (fun _ => rfl) (fun _ => rfl)]
  loss hw hy _ hp := inv_squaredLoss hw hy hp
  calibrate _ _ _ _ := rfl

theorem nbinom_invariant (g : ℝ → ℝ) (a c : ℝ) : RowInvariant (nbinomEstimator g a c) .mass where
  scale hw hy _ := inv_globalScale .log hw hy
  parameters hw hy _ hc hp := by
    funext b
    unfold nbinomEstimator nbinomCalcParameters
    dsimp only
    rw [hw.binSum_of hc (hy.map₂ (fun u v => u / (a + c * Real.exp v)) hp)
        (fun s => mul_div_assoc _ _ _) (fun s => mul_div_assoc _ _ _),
      hw.binSum_of hc (hp.map fun v => Real.exp v / (a + c * Real.exp v))
        (fun s => mul_div_assoc _ _ _) (fun s => mul_div_assoc _ _ _)]
  loss hw hy _ hp := inv_squaredLoss hw hy hp
  calibrate _ _ _ _ := rfl

theorem classifier_invariant (ppf : ℝ → ℝ → ℝ → ℝ) (coef : ℝ → ℝ) : RowInvariant (classifierEstimator ppf coef) .mass where
  scale hw hy _ := inv_globalScale .logit hw hy
  parameters hw hy _ hc hp := by
    funext b
    unfold classifierEstimator classifierCalcParameters classifierPosterior
    dsimp only
    rw [hw.binSum_of hc (hy.map₂ (fun u v => boostWeight u (logitLink.unlink v) * u) hp)
        (fun s => mul_assoc _ _ _) (fun s => mul_assoc _ _ _),
      hw.binSum_of hc (hy.map₂ (fun u v => boostWeight u (logitLink.unlink v) * (1 - u)) hp)
        (fun s => mul_assoc _ _ _) (fun s => mul_assoc _ _ _)]
  loss hw hy _ hp := inv_squaredLoss hw hy hp
  calibrate _ _ _ _ := rfl

theorem inv_precalcVariance {α : Type} {n n' : ℕ} {row row' : ℕ → α} {y y' w w' : ℕ → ℝ} {codes codes' : ℕ → ℕ}
    (hw : SameMass n n' row row' w w') (hy : Agree n n' row row' y y') (hc : Agree n n' row row' codes codes') :
    precalcVarianceY n' codes' y' w' = precalcVarianceY n codes y w := by
  funext b
  unfold precalcVarianceY variancePrior
  dsimp only
  have e1 : ∑ i ∈ range n, y i * w i = ∑ i ∈ range n', y' i * w' i :=
    hw.sum_of hy (fun s => mul_comm _ _) (fun s => mul_comm _ _)
  rw [← hw.sum, ← e1]
  generalize (∑ i ∈ range n, y i * w i) / ∑ i ∈ range n, w i = m
  rw [← hw.sum_of (hy.map fun u => (u - m) * (u - m)) (fun s => mul_comm _ _) (fun s => mul_comm _ _),
    ← hw.binSum hc, ← (hw.mul hy).binSum hc]
  set A := binSum n codes fun s => w s * y s with hA
  set B := binSum n codes w with hB
  rw [hw.binSum_of hc (hy.map₂ (fun u c => (u - A c / B c) ^ 2) hc) (fun _ => rfl) (fun _ => rfl)]

theorem location_invariant : RowInvariant locationEstimator .each where
  scale hw hy _ := inv_globalScale .identity hw hy
  parameters {α n n' row row' y y' w w' p p' codes codes' it} hw hy hw2 hc hp := by
    funext b
    unfold locationEstimator locationParameter interceptParameter calcFactorsGeneric calcVarianceGeneric
    dsimp only
    rw [inv_precalcVariance hw hy hc]
    set V := precalcVarianceY n codes y w
    have hVc : Agree n n' row row' (fun i => 1 / V (codes i)) (fun i => 1 / V (codes' i)) := hc.map fun c => 1 / V c
    have e1 : binSum n codes (fun i => w i / V (codes i) * (y i - p i))
        = binSum n' codes' fun i => w' i / V (codes' i) * (y' i - p' i) :=
      hw.binSum_of hc (hVc.map₂ (fun u v => u * v) (hy.map₂ (fun a b => a - b) hp)) (fun s => by ring) (fun s => by ring)
    have e2 : binSum n codes (fun i => w i / V (codes i)) = binSum n' codes' fun i => w' i / V (codes' i) :=
      hw.binSum_of hc hVc (fun s => by ring) (fun s => by ring)
    have e3 : binSum n codes (fun i => w i * (w i / V (codes i))) = binSum n' codes' fun i => w' i * (w' i / V (codes' i)) :=
      hw.binSum_of hc ((hw2).map₂ (fun u v => u * v) hVc) (fun s => by ring) (fun s => by ring)
    rw [e1, e2, e3]
  loss hw hy _ hp := inv_squaredLoss hw hy hp
  calibrate c c' h1 h2 := by
    unfold locationEstimator
    funext bw f b
    dsimp only
    unfold locCalibrate
    rw [h1, h2]

theorem locPoisson_invariant : RowInvariant locPoissonEstimator .each where
  scale hw hy _ := inv_globalScale .identity hw hy
  parameters {α n n' row row' y y' w w' p p' codes codes' it} hw hy hw2 hc hp := by
    funext b
    unfold locPoissonEstimator locPoissonParameter weightedStddev
    dsimp only
    rw [← hw.sum, ← (hw.mul hy).sum]
    generalize (∑ i ∈ range n, w i * y i) / ∑ i ∈ range n, w i = m
    have h1 : ∑ i ∈ range n, w i * (y i - m) ^ 2 = ∑ i ∈ range n', w' i * (y' i - m) ^ 2 :=
      hw.sum_of (hy.map fun u => (u - m) ^ 2) (fun _ => rfl) (fun _ => rfl)
    rw [← h1, ← hw.binSum hc]
    have hq : Agree n n' row row' (fun i => if 0 < p i then p i else 0) (fun i => if 0 < p' i then p' i else 0) :=
      hp.map fun v => if 0 < v then v else 0
    have hv := hq.map fun v => if v ≤ 0 then 1 else v
    set q := fun i => if 0 < p i then p i else 0
    set q' := fun i => if 0 < p' i then p' i else 0
    have e1 : binSum n codes (fun i => w i * (y i - q i) / if q i ≤ 0 then 1 else q i)
        = binSum n' codes' fun i => w' i * (y' i - q' i) / if q' i ≤ 0 then 1 else q' i :=
      hw.binSum_of hc ((hy.map₂ (fun a b => a - b) hq).map₂ (fun a b => a / b) hv)
        (fun s => mul_div_assoc _ _ _) (fun s => mul_div_assoc _ _ _)
    have e2 : binSum n codes (fun i => w i / if q i ≤ 0 then 1 else q i)
        = binSum n' codes' fun i => w' i / if q' i ≤ 0 then 1 else q' i :=
      hw.binSum_of hc (hv.map fun v => 1 / v) (fun s => (mul_one_div _ _).symm) (fun s => (mul_one_div _ _).symm)
    have e3 : binSum n codes (fun i => w i ^ 2 / if q i ≤ 0 then 1 else q i)
        = binSum n' codes' fun i => w' i ^ 2 / if q' i ≤ 0 then 1 else q' i :=
      hw.binSum_of hc ((hw2).map₂ (fun a b => a / b) hv) (fun s => by ring) (fun s => by ring)
    rw [e1, e2, e3]
  loss hw hy _ hp := inv_squaredLoss hw hy hp
  calibrate _ _ _ _ := rfl

theorem gbs_invariant (regalpha : ℝ) : RowInvariant (gbsEstimator regalpha) .each where
  scale hw hy _ := by
    unfold gbsEstimator
    dsimp only
    rw [hw.sum, hw.sum_of hy (fun s => mul_comm _ _) (fun s => mul_comm _ _)]
  parameters {α n n' row row' y y' w w' p p' codes codes' it} hw hy hw2 hc hp := by
    funext b
    have hd := hy.map₂ (fun a b => a - b) hp
    have hwd := (hw2).map₂ (fun a b => a * b) hd
    unfold gbsEstimator gbsSummand gbsVariance
    dsimp only
    have e1 : binSum n codes (fun i => (y i - p i) * w i) = binSum n' codes' fun i => (y' i - p' i) * w' i :=
      hw.binSum_of hc hd (fun s => mul_comm _ _) (fun s => mul_comm _ _)
    have e2 : binSum n codes (fun i => w i * (1 + regalpha)) = binSum n' codes' fun i => w' i * (1 + regalpha) :=
      hw.binSum_of hc (Agree.const (1 + regalpha)) (fun _ => rfl) (fun _ => rfl)
    have e3 : binSum n codes (fun i => (y i - p i) * w i * (w i * (1 + regalpha)))
        = binSum n' codes' fun i => (y' i - p' i) * w' i * (w' i * (1 + regalpha)) :=
      hw.binSum_of hc (hwd.map₂ (fun a b => a * b) (Agree.const (1 + regalpha))) (fun s => by ring) (fun s => by ring)
    have e4 : binSum n codes (fun i => (y i - p i) * w i * ((y i - p i) * w i))
        = binSum n' codes' fun i => (y' i - p' i) * w' i * ((y' i - p' i) * w' i) :=
      hw.binSum_of hc (hwd.map₂ (fun a b => a * b) hd) (fun s => by ring) (fun s => by ring)
    have e5 : binSum n codes (fun i => w i * (1 + regalpha) * (w i * (1 + regalpha)))
        = binSum n' codes' fun i => w' i * (1 + regalpha) * (w' i * (1 + regalpha)) :=
      hw.binSum_of hc ((hw2).map₂ (fun a b => a * b) (Agree.const ((1 + regalpha) * (1 + regalpha))))
        (fun s => by ring) (fun s => by ring)
    rw [e1, e2, e3, e4, e5]
  loss {α n n' row row' y y' w w' p p'} hw hy _ hp := by
    unfold gbsEstimator gbsLoss
    dsimp only
    rw [hw.sum_of (hp.map₂ (fun a b => (a - b) ^ 2) hy) (fun _ => rfl) (fun _ => rfl),
      hw.sum_of (hy.map fun u => if u ≠ 0 then (1 : ℝ) else 0) (fun s => mul_comm _ _) (fun s => mul_comm _ _)]
  calibrate _ _ _ _ := rfl

/-- Two training sets made of the same rows, with equal numbers of bins. -/
structure SameRows {α : Type} {σ : Type*} (S : Setup σ) (D D' : TrainSet) (row row' : ℕ → α) : Prop where
  y : Agree D.n D'.n row row' D.y D'.y
  mass : SameMass D.n D'.n row row' D.w D'.w
  columns : ∀ f ∈ S.features, Agree D.n D'.n row row' (D.X.row f.1.group) (D'.X.row f.1.group)
  bins : ∀ f ∈ S.features, (bindData D'.X D'.n f.1.group none).2 = (bindData D.X D.n f.1.group none).2
  prior : D.prior = none ∧ D'.prior = none ∨
    ∃ q q', D.prior = some q ∧ D'.prior = some q' ∧ Agree D.n D'.n row row' q q'
  groups : ∀ f ∈ S.features, f.1.group ≠ []

section
variable {α : Type} {σ : Type*} {S : Setup σ} {D D' : TrainSet} {row row' : ℕ → α}

theorem SameRows.codes (h : SameRows S D D' row row') (f : FeatureSpec × SmootherKind) (hf : f ∈ S.features) :
    Agree D.n D'.n row row' (f.1.cfg D.X D.n).bin (f.1.cfg D'.X D'.n).bin := by
  obtain ⟨P, h1, h2⟩ := h.columns f hf
  refine ⟨fun r => if finiteSemiPositive (P r) then encode (bindData D.X D.n f.1.group none).2 ((P r).map floorComp)
    else (bindData D.X D.n f.1.group none).2.prod, fun s hs => ?_, fun s hs => ?_⟩
  · show (bindData D.X D.n f.1.group none).1.getD s 0 = _
    rw [bindData_code D.X D.n f.1.group (h.groups f hf) s hs, h1 s hs]
  · show (bindData D'.X D'.n f.1.group none).1.getD s 0 = _
    rw [bindData_code D'.X D'.n f.1.group (h.groups f hf) s hs, h2 s hs, h.bins f hf]

/-- Running predictions that only depend on the row. -/
def PredSim (n n' : ℕ) (row row' : ℕ → α) (p p' : Pred ℝ) : Prop :=
  Agree n n' row row' p.factors p'.factors ∧ Agree n n' row row' p.exponents p'.exponents

theorem SameRows.cfgs (h : SameRows S D D' row row') :
    List.Forall₂ (CfgSim (PredSim D.n D'.n row row')) (S.cfgs D) (S.cfgs D') := by
  unfold Setup.cfgs
  rw [List.forall₂_map_left_iff, List.forall₂_map_right_iff, List.forall₂_same]
  intro f hf
  have hc := h.codes f hf
  have hn : (f.1.cfg D'.X D'.n).nFinite = (f.1.cfg D.X D.n).nFinite := congrArg List.prod (h.bins f hf)
  refine ⟨rfl, rfl, hn, rfl, ?_, ?_⟩
  · rintro v p p' ⟨hp1, hp2⟩
    unfold Pred.update
    have e : (f.1.cfg D'.X D'.n).external = (f.1.cfg D.X D.n).external := rfl
    rw [e]
    split
    · exact ⟨hp1, hp2.map₂ (fun a b => a + v b) hc⟩
    · exact ⟨hp1.map₂ (fun a b => a + v b) hc, hp2⟩
  · rintro v p p' ⟨hp1, hp2⟩
    unfold Pred.remove
    have e : (f.1.cfg D'.X D'.n).external = (f.1.cfg D.X D.n).external := rfl
    rw [e]
    split
    · exact ⟨hp1, hp2.map₂ (fun a b => a - v b) hc⟩
    · exact ⟨hp1.map₂ (fun a b => a - v b) hc, hp2⟩

/-- Two estimators that give the same on two sample sets made of the same rows. -/
structure RowInvariantAt {α : Type} (E E' : Estimator) (D D' : TrainSet) (row row' : ℕ → α) : Prop where
  link : E'.link = E.link
  valid : (∀ i < D.n, E.valid (D.y i)) ↔ ∀ i < D'.n, E'.valid (D'.y i)
  shiftPrior : E'.shiftPrior = E.shiftPrior
  scale : E'.scale D'.n D'.y D'.w = E.scale D.n D.y D.w
  parameters : ∀ {it : ℕ} {codes codes' : ℕ → ℕ} {p p' : ℕ → ℝ}, Agree D.n D'.n row row' codes codes' →
    Agree D.n D'.n row row' p p' → E'.parameters it D'.n codes' D'.y D'.w p' = E.parameters it D.n codes D.y D.w p
  loss : ∀ {p p' : ℕ → ℝ}, Agree D.n D'.n row row' p p' → E'.loss D'.n p' D'.y D'.w = E.loss D.n p D.y D.w
  calibrate : ∀ c c' : FeatureCfg, c'.nFinite = c.nFinite → c'.missingNotLearned = c.missingNotLearned →
    E'.calibrate c' = E.calibrate c

theorem RowInvariant.at_ {E : Estimator} {need : Need} (hE : RowInvariant E need) (h : SameRows S D D' row row')
    (he : need.holds D.n D'.n row row' D.w D'.w) (hv : (∀ i < D.n, E.valid (D.y i)) ↔ ∀ i < D'.n, E.valid (D'.y i)) :
    RowInvariantAt E E D D' row row' where
  link := rfl
  valid := hv
  shiftPrior := rfl
  scale := hE.scale h.mass h.y he
  parameters hc hp := hE.parameters h.mass h.y he hc hp
  loss hp := hE.loss h.mass h.y he hp
  calibrate := hE.calibrate

theorem SameRows.oracle (h : SameRows S D D' row row') (E E' : Estimator) (hE : RowInvariantAt E E' D D' row row') :
    OracleSim (PredSim D.n D'.n row row') (S.oracle E D) (S.oracle E' D') := by
  refine ⟨?_, ?_, rfl, ?_, ?_⟩
  · intro it i p p' fs hp
    unfold Setup.oracle
    dsimp only
    cases hi : S.features[i]? with
    | none => rfl
    | some f =>
      have hf := List.mem_of_getElem? hi
      dsimp only
      rw [hE.parameters (h.codes f hf) hp.1]
  · intro it i p p' fs u hp
    unfold Setup.oracle
    dsimp only
    cases hi : S.features[i]? with
    | none => rfl
    | some f =>
      have hf := List.mem_of_getElem? hi
      dsimp only
      rw [hE.parameters (h.codes f hf) hp.1, h.bins f hf, h.mass.binSum (h.codes f hf)]
  · unfold Setup.oracle
    dsimp only
    funext it i fs
    cases hi : S.features[i]? with
    | none => rfl
    | some f =>
      have hf := List.mem_of_getElem? hi
      dsimp only
      rw [h.mass.binSum (h.codes f hf)]
      rw [hE.calibrate (f.1.cfg D.X D.n) (f.1.cfg D'.X D'.n) (congrArg List.prod (h.bins f hf)) rfl]
  · intro p p' hp
    unfold Setup.oracle
    dsimp only
    rw [hE.link]
    exact hE.loss (hp.1.map _)

/-- Both training sets give the same model. -/
theorem SameRows.fit_at (h : SameRows S D D' row row') (E E' : Estimator) (hE : RowInvariantAt E E' D D' row row') (fuel : ℕ) :
    S.fit E' D' fuel = S.fit E D fuel := by
  have hv := hE.valid
  unfold Setup.fit
  by_cases hval : ∀ i < D.n, E.valid (D.y i)
  · rw [if_pos hval, if_pos (hv.mp hval)]
    dsimp only
    rw [hE.scale, hE.link]
    have hpar : S.paramsFor E' = S.paramsFor E := by
      unfold Setup.paramsFor
      rw [hE.link]
    have hoff : E'.offset D' = E.offset D := by
      unfold Estimator.offset
      rcases h.prior with ⟨h1, h2⟩ | ⟨q, q', h1, h2, hq⟩
      · rw [h1, h2]
      · rw [h1, h2]
        dsimp only
        rw [hE.scale, hE.shiftPrior, hE.link, inv_priorOffset E.link _ h.mass hq]
    rw [hoff, hpar]
    split
    · have hprior : Agree D.n D'.n row row'
          (fun s => (priorPrediction E.link (E.scale D.n D.y D.w) (E.offset D) D.prior s).getFin)
          (fun s => (priorPrediction E.link (E.scale D.n D.y D.w) (E.offset D) D'.prior s).getFin) := by
        rcases h.prior with ⟨h1, h2⟩ | ⟨q, q', h1, h2, hq⟩
        · rw [h1, h2]; exact Agree.const (E.scale D.n D.y D.w).getFin
        · rw [h1, h2]
          exact hq.map fun v => (if ((linkFlt E.link v).add (E.offset D)).isFinite = true then
            (linkFlt E.link v).add (E.offset D) else E.scale D.n D.y D.w).getFin
      generalize (fun s => (priorPrediction E.link (E.scale D.n D.y D.w) (E.offset D) D.prior s).getFin) = pr at hprior ⊢
      generalize (fun s => (priorPrediction E.link (E.scale D.n D.y D.w) (E.offset D) D'.prior s).getFin) = pr' at hprior ⊢
      rcases sim_fitMain (S.paramsFor E) (h.oracle E E' hE) (S.cfgs D) (S.cfgs D') h.cfgs pr pr' ⟨hprior, Agree.const 0⟩ fuel with ⟨e1, e2⟩ | ⟨e, e1, e2⟩ | ⟨r, r', e1, e2, e3, e4, -⟩
      · rw [e1, e2]
      · rw [e1, e2]
      · rw [e1, e2]
        dsimp only
        have hff : fittedFeatures D'.X D'.n (S.features.map (·.1)) r'.factors
            = fittedFeatures D.X D.n (S.features.map (·.1)) r.factors := by
          rw [e3]
          have hb := h.bins
          unfold fittedFeatures
          generalize r.factors = fac
          generalize S.features = l at hb
          induction l generalizing fac with
          | nil => rfl
          | cons f l ih =>
            cases fac with
            | nil => rfl
            | cons g fac =>
              rw [List.map_cons, List.zipWith_cons_cons, List.zipWith_cons_cons,
                ih fac (fun f hf => hb f (List.mem_cons_of_mem _ hf)), hb f (List.mem_cons_self ..)]
        rw [hff, e4]
    · rfl
  · rw [if_neg hval, if_neg (fun hc => hval (hv.mpr hc))]

/-- As `SameRows.fit_at`, for one estimator. -/
theorem SameRows.fit (h : SameRows S D D' row row') (E : Estimator) (need : Need) (hE : RowInvariant E need)
    (he : need.holds D.n D'.n row row' D.w D'.w)
    (hv : (∀ i < D.n, E.valid (D.y i)) ↔ ∀ i < D'.n, E.valid (D'.y i)) (fuel : ℕ) :
    S.fit E D' fuel = S.fit E D fuel :=
  h.fit_at E E (hE.at_ h he hv) fuel

end
end CB
