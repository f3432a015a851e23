import Verif.Model.Training
import Mathlib.Algebra.BigOperators.Group.Finset.Basic
import Mathlib.Algebra.BigOperators.Intervals
import Mathlib.Logic.Equiv.Basic

/-!
# Two trainings whose bins are numbered differently

If the bins of each feature are numbered differently in two trainings and everything training computes per bin agrees up to the
numbering, the trainings give the same factors up to the numbering.
-/

set_option autoImplicit false
set_option linter.unusedSectionVars false

namespace CB

section
variable {K : Type*} [Field K] [LinearOrder K]

/-- A feature whose arrays over bins are numbered differently. -/
def FState.relabel (β : Equiv.Perm ℕ) (fs : FState K) : FState K :=
  { fs with
    factors := fun b => fs.factors (β.symm b)
    factorsOld := fun b => fs.factorsOld (β.symm b)
    agg := fs.agg.map fun a b => a (β.symm b) }

/-- Features whose arrays are numbered differently; `β i` is the numbering of feature `i`. -/
def relabelStates (β : ℕ → Equiv.Perm ℕ) : ℕ → List (FState K) → List (FState K)
  | _, [] => []
  | i, fs :: fss => fs.relabel (β i) :: relabelStates β (i + 1) fss

/-- Final factors that are numbered differently. -/
def relabelFactors (β : ℕ → Equiv.Perm ℕ) : ℕ → List (ℕ → K) → List (ℕ → K)
  | _, [] => []
  | i, f :: fs => (fun b => f ((β i).symm b)) :: relabelFactors β (i + 1) fs

/-- The numbering keeps the missing bin and the finite bins. -/
structure IsNumbering (β : Equiv.Perm ℕ) (n : ℕ) : Prop where
  missing : β n = n
  finite : ∀ b, β b < n ↔ b < n

theorem IsNumbering.symm {β : Equiv.Perm ℕ} {n : ℕ} (h : IsNumbering β n) : IsNumbering β.symm n where
  missing := by rw [Equiv.symm_apply_eq]; exact h.missing.symm
  finite b := by rw [← h.finite, Equiv.apply_symm_apply]

theorem IsNumbering.sum_range {M : Type*} [AddCommMonoid M] {β : Equiv.Perm ℕ} {n : ℕ} (h : IsNumbering β n) (f : ℕ → M) :
    ∑ b ∈ Finset.range n, f (β b) = ∑ b ∈ Finset.range n, f b := by
  apply Finset.sum_equiv β
  · intro b
    rw [Finset.mem_range, Finset.mem_range, h.finite]
  · intro b _; rfl

/-- Two bound features that agree up to the numbering of the bins, on the first `N` samples. -/
structure CfgRel (H : Option (List (List String))) (N : ℕ) (β : Equiv.Perm ℕ) (c c' : FeatureCfg) : Prop where
  columns : c'.group.length = c.group.length
  hierarchical : ∀ groups, H = some groups → groups.contains c'.group = groups.contains c.group
  external : c'.external = c.external
  nFinite : c'.nFinite = c.nFinite
  missing : c'.missingNotLearned = c.missingNotLearned
  numbering : IsNumbering β c.nFinite
  bin : ∀ s < N, c'.bin s = β (c.bin s)

/-- Running predictions that agree on the first `N` samples. -/
def PredRel (N : ℕ) (p p' : Pred K) : Prop := ∀ s < N, p'.factors s = p.factors s ∧ p'.exponents s = p.exponents s

/-- Lists of bound features that agree up to the numberings. -/
def CfgsRel (H : Option (List (List String))) (N : ℕ) (β : ℕ → Equiv.Perm ℕ) : ℕ → List FeatureCfg → List FeatureCfg → Prop
  | _, [], [] => True
  | i, c :: cs, c' :: cs' => CfgRel H N (β i) c c' ∧ CfgsRel H N β (i + 1) cs cs'
  | _, _, _ => False

/-- Two oracles that agree up to the numberings. -/
structure OracleRel (N : ℕ) (β : ℕ → Equiv.Perm ℕ) (cfgs : List FeatureCfg) (o o' : Oracle K) : Prop where
  estimate : ∀ it i p p' fs b, PredRel N p p' →
    o'.estimate it i p' (fs.relabel (β i)) (β i b) = o.estimate it i p fs b
  smooth : ∀ it i c, cfgs[i]? = some c → ∀ p p' fs u b, PredRel N p p' → b < c.nFinite →
    o'.smooth it i p' (fs.relabel (β i)) (fun b => u ((β i).symm b)) (β i b) = o.smooth it i p fs u b
  learnRate : o'.learnRate = o.learnRate
  calibrate : ∀ it i c, cfgs[i]? = some c → ∀ fs b, o'.calibrate it i (fs.relabel (β i)) (β i b) = o.calibrate it i fs b
  loss : ∀ p p', PredRel N p p' → o'.loss p' = o.loss p

variable {H : Option (List (List String))} {N : ℕ}

theorem relabel_update {β : Equiv.Perm ℕ} {c c' : FeatureCfg} (hc : CfgRel H N β c c') (fs : FState K) (p p' : Pred K)
    (h : PredRel N p p') :
    PredRel N (p.update c (predInSample c fs)) (p'.update c' (predInSample c' (fs.relabel β))) := by
  intro s hs
  unfold Pred.update predInSample FState.relabel
  rw [hc.external]
  have h1 := h s hs
  split
  · exact ⟨h1.1, by simp only [h1.2, hc.bin s hs, Equiv.symm_apply_apply]⟩
  · exact ⟨by simp only [h1.1, hc.bin s hs, Equiv.symm_apply_apply], h1.2⟩

theorem relabel_remove {β : Equiv.Perm ℕ} {c c' : FeatureCfg} (hc : CfgRel H N β c c') (fs : FState K) (p p' : Pred K)
    (h : PredRel N p p') :
    PredRel N (p.remove c (predInSample c fs)) (p'.remove c' (predInSample c' (fs.relabel β))) := by
  intro s hs
  unfold Pred.remove predInSample FState.relabel
  rw [hc.external]
  have h1 := h s hs
  split
  · exact ⟨h1.1, by simp only [h1.2, hc.bin s hs, Equiv.symm_apply_apply]⟩
  · exact ⟨by simp only [h1.1, hc.bin s hs, Equiv.symm_apply_apply], h1.2⟩

theorem relabel_updateFactors {β : Equiv.Perm ℕ} {c c' : FeatureCfg} (hc : CfgRel H N β c c') (fs : FState K) (u : ℕ → K) (lr : K) :
    updateFactors c' (fs.relabel β) (fun b => u (β.symm b)) lr = (updateFactors c fs u lr).relabel β := by
  unfold updateFactors FState.relabel
  rw [hc.nFinite, hc.missing]
  have hm := hc.numbering.symm.missing
  have he : ∀ b, (β.symm b = c.nFinite) ↔ b = c.nFinite := by
    intro b
    rw [Equiv.symm_apply_eq, hc.numbering.missing]
  simp only [hm, he]

theorem relabel_predictFactors {β : Equiv.Perm ℕ} {c c' : FeatureCfg} (hc : CfgRel H N β c c') (fs : FState K)
    (sm sm' : ℕ → Option K) (hsm : ∀ b < c.nFinite, sm' (β b) = sm b) (lr : K) :
    predictFactors c' (fs.relabel β) sm' lr = fun b => predictFactors c fs sm lr (β.symm b) := by
  funext b
  unfold predictFactors
  rw [hc.nFinite]
  by_cases hb : b < c.nFinite
  · have hb' := (hc.numbering.symm.finite b).mpr hb
    rw [if_pos hb, if_pos hb', ← hsm _ hb', Equiv.apply_symm_apply]
    rfl
  · have hb' := mt (hc.numbering.symm.finite b).mp hb
    rw [if_neg hb, if_neg hb']
    show fs.factors (β.symm c.nFinite) = _
    rw [hc.numbering.symm.missing]

theorem relabel_clipUpdate {β : Equiv.Perm ℕ} {c c' : FeatureCfg} (hc : CfgRel H N β c c') (k : ClipConsts K) (fs : FState K) :
    clipUpdate k c' (fs.relabel β) = fun b => clipUpdate k c fs (β.symm b) := by
  obtain ⟨f, fo, agg, isF, z⟩ := fs
  unfold clipUpdate FState.relabel
  rw [hc.columns, hc.external]
  cases isF <;> cases agg <;> rfl

/-- The first half of `visit_factors`: the clips. -/
def visitClip (p : Params K) (o : Oracle K) (cfg : FeatureCfg) (diverging : ℕ) (isDiverging : Bool)
    (initialLoss : Flt K) (unfitted : ℕ → K) (fs : FState K) (pred : Pred K) : FState K × Pred K :=
  if p.clip && p.aggregate then
    let fs := { fs with factors := clipUpdate p.consts cfg fs }
    if isDiverging then
      let contribution := predInSample cfg fs
      let tried := pred.update cfg contribution
      let diverged := isDiverged initialLoss (o.loss tried)
      let pred := tried.remove cfg contribution
      if diverged then
        if diverging > 1 then
          match fs.agg with
          | some agg => ({ fs with factors := fun b => -agg b, zeroSmoother := true }, pred)
          | none => (fs, pred)
        else
          let clipped : ℕ → K := fun b =>
            clipTo (fs.factors b) (unfitted b + p.consts.logLow) (unfitted b + p.consts.logHigh)
          ({ fs with factors := clipped }, pred)
      else (fs, pred)
    else (fs, pred)
  else (fs, pred)

/-- The second half of `visit_factors`: the aggregation. -/
def visitAggregate (aggregate : Bool) (fs : FState K) : FState K :=
  let agg := match fs.isFitted, aggregate, fs.agg with
    | true, true, some agg => fun b => agg b + fs.factors b
    | _, _, _ => fs.factors
  { fs with agg := some agg, isFitted := true }

theorem visitFactors_halves (p : Params K) (o : Oracle K) (cfg : FeatureCfg) (dv : ℕ) (isd : Bool) (il : Flt K) (u : ℕ → K)
    (fs : FState K) (pr : Pred K) :
    visitFactors p o cfg dv isd il u fs pr
      = (visitAggregate p.aggregate (visitClip p o cfg dv isd il u fs pr).1, (visitClip p o cfg dv isd il u fs pr).2) := rfl

theorem relabel_visitAggregate (β : Equiv.Perm ℕ) (a : Bool) (fs : FState K) :
    visitAggregate a (fs.relabel β) = (visitAggregate a fs).relabel β := by
  obtain ⟨f, fo, agg, isF, z⟩ := fs
  cases isF <;> cases a <;> cases agg <;> rfl

theorem relabel_visitClip (p : Params K) (o o' : Oracle K) (hl : ∀ p p', PredRel N p p' → o'.loss p' = o.loss p)
    {β : Equiv.Perm ℕ} {c c' : FeatureCfg} (hc : CfgRel H N β c c')
    (dv : ℕ) (isd : Bool) (il : Flt K) (u : ℕ → K) (fs : FState K) (pr pr' : Pred K) (h : PredRel N pr pr') :
    (visitClip p o' c' dv isd il (fun b => u (β.symm b)) (fs.relabel β) pr').1
        = (visitClip p o c dv isd il u fs pr).1.relabel β ∧
      PredRel N (visitClip p o c dv isd il u fs pr).2
        (visitClip p o' c' dv isd il (fun b => u (β.symm b)) (fs.relabel β) pr').2 := by
  have hfs : ({ fs.relabel β with factors := clipUpdate p.consts c' (fs.relabel β) } : FState K)
      = FState.relabel β { fs with factors := clipUpdate p.consts c fs } := by
    rw [relabel_clipUpdate hc]; rfl
  have h1 := relabel_update hc { fs with factors := clipUpdate p.consts c fs } pr pr' h
  have h2 := relabel_remove hc { fs with factors := clipUpdate p.consts c fs } _ _ h1
  have hlo := hl _ _ h1
  unfold visitClip
  dsimp only
  rw [hfs, hlo]
  split
  · cases isd with
    | false => exact ⟨rfl, h⟩
    | true =>
      simp only [if_true]
      split
      · split
        · obtain ⟨f, fo, agg, isF, z⟩ := fs
          cases agg with
          | none => exact ⟨rfl, h2⟩
          | some a => exact ⟨rfl, h2⟩
        · rw [relabel_clipUpdate hc]; exact ⟨rfl, h2⟩
      · exact ⟨rfl, h2⟩
  · exact ⟨rfl, h⟩

theorem relabel_visitFactors (p : Params K) (o o' : Oracle K) (hl : ∀ p p', PredRel N p p' → o'.loss p' = o.loss p)
    {β : Equiv.Perm ℕ} {c c' : FeatureCfg} (hc : CfgRel H N β c c')
    (dv : ℕ) (isd : Bool) (il : Flt K) (u : ℕ → K) (fs : FState K) (pr pr' : Pred K) (h : PredRel N pr pr') :
    (visitFactors p o' c' dv isd il (fun b => u (β.symm b)) (fs.relabel β) pr').1
        = (visitFactors p o c dv isd il u fs pr).1.relabel β ∧
      PredRel N (visitFactors p o c dv isd il u fs pr).2
        (visitFactors p o' c' dv isd il (fun b => u (β.symm b)) (fs.relabel β) pr').2 := by
  have h1 := relabel_visitClip p o o' hl hc dv isd il u fs pr pr' h
  rw [visitFactors_halves, visitFactors_halves, h1.1, relabel_visitAggregate]
  exact ⟨rfl, h1.2⟩

theorem relabel_featureIteration (p : Params K) {o o' : Oracle K} {β : ℕ → Equiv.Perm ℕ} {cfgs : List FeatureCfg}
    (ho : OracleRel N β cfgs o o') (it i : ℕ) {c c' : FeatureCfg} (hi : cfgs[i]? = some c)
    (hc : CfgRel H N (β i) c c') (dv : ℕ) (isd : Bool) (il : Flt K) (fs : FState K) (pr pr' : Pred K) (h : PredRel N pr pr') :
    (featureIteration p o' it i c' dv isd il (fs.relabel (β i)) pr').1
        = (featureIteration p o it i c dv isd il fs pr).1.relabel (β i) ∧
      PredRel N (featureIteration p o it i c dv isd il fs pr).2
        (featureIteration p o' it i c' dv isd il (fs.relabel (β i)) pr').2 := by
  unfold featureIteration
  dsimp only
  have hq : PredRel N (if p.aggregate then pr else pr.remove c (predInSample c fs))
      (if p.aggregate then pr' else pr'.remove c' (predInSample c' (fs.relabel (β i)))) := by
    split
    · exact h
    · exact relabel_remove hc fs pr pr' h
  generalize (if p.aggregate then pr else pr.remove c (predInSample c fs)) = q at hq
  generalize (if p.aggregate then pr' else pr'.remove c' (predInSample c' (fs.relabel (β i)))) = q' at hq
  have hest : o'.estimate it i q' (fs.relabel (β i)) = fun b => o.estimate it i q fs ((β i).symm b) := by
    funext b
    have := ho.estimate it i q q' fs ((β i).symm b) hq
    rwa [Equiv.apply_symm_apply] at this
  rw [hest, ho.learnRate]
  generalize (o.estimate it i q fs) = u
  rw [relabel_updateFactors hc]
  generalize updateFactors c fs u (o.learnRate (it + 1)) = fs1
  have hsm := fun b hb => ho.smooth it i c hi q q' fs1 u b hq hb
  have hpf : ({ fs1.relabel (β i) with
      factors := predictFactors c' (fs1.relabel (β i))
        (o'.smooth it i q' (fs1.relabel (β i)) fun b => u ((β i).symm b)) (o.learnRate (it + 1)) } : FState K)
      = FState.relabel (β i) { fs1 with factors := predictFactors c fs1 (o.smooth it i q fs1 u) (o.learnRate (it + 1)) } := by
    rw [relabel_predictFactors hc fs1 _ _ hsm]; rfl
  rw [hpf]
  have hcal : ∀ fs2 : FState K, o'.calibrate it i (fs2.relabel (β i)) = fun b => o.calibrate it i fs2 ((β i).symm b) := by
    intro fs2
    funext b
    have := ho.calibrate it i c hi fs2 ((β i).symm b)
    rwa [Equiv.apply_symm_apply] at this
  rw [hcal]
  have hv := relabel_visitFactors p o o' ho.loss hc dv isd il u
    { fs1 with
      factors := o.calibrate it i
        { fs1 with factors := predictFactors c fs1 (o.smooth it i q fs1 u) (o.learnRate (it + 1)) } } q q' hq
  have hu := relabel_update hc (visitFactors p o c dv isd il u
    { fs1 with
      factors := o.calibrate it i
        { fs1 with factors := predictFactors c fs1 (o.smooth it i q fs1 u) (o.learnRate (it + 1)) } } q).1 _ _ hv.2
  rw [← hv.1] at hu
  exact ⟨hv.1, hu⟩

theorem relabel_featurePass (p : Params K) {o o' : Oracle K} {β : ℕ → Equiv.Perm ℕ} {all : List FeatureCfg}
    (ho : OracleRel N β all o o') (it dv : ℕ) (isd : Bool) (il : Flt K) :
    ∀ (cfgs cfgs' : List FeatureCfg) (i : ℕ), CfgsRel p.hierarchical N β i cfgs cfgs' → (∀ j c, cfgs[j]? = some c → all[i + j]? = some c) →
      ∀ (fss : List (FState K)) (pr pr' : Pred K), PredRel N pr pr' →
      (featurePass p o' it dv isd il i cfgs' (relabelStates β i fss) pr').1
          = relabelStates β i (featurePass p o it dv isd il i cfgs fss pr).1 ∧
        PredRel N (featurePass p o it dv isd il i cfgs fss pr).2
          (featurePass p o' it dv isd il i cfgs' (relabelStates β i fss) pr').2 := by
  intro cfgs
  induction cfgs with
  | nil =>
    intro cfgs' i hf _ fss pr pr' h
    cases cfgs' with
    | nil => exact ⟨rfl, h⟩
    | cons c' cfgs' => exact absurd hf (by simp [CfgsRel])
  | cons c cfgs ih =>
    intro cfgs' i hf hall fss pr pr' h
    cases cfgs' with
    | nil => exact absurd hf (by simp [CfgsRel])
    | cons c' cfgs' =>
      obtain ⟨hc, hf⟩ := hf
      cases fss with
      | nil => exact ⟨rfl, h⟩
      | cons fs fss =>
        have hci : all[i]? = some c := hall 0 c rfl
        have hall' : ∀ j d, cfgs[j]? = some d → all[i + 1 + j]? = some d := by
          intro j d hd
          have := hall (j + 1) d (by rw [List.getElem?_cons_succ]; exact hd)
          rwa [show i + 1 + j = i + (j + 1) by omega]
        unfold featurePass relabelStates
        dsimp only
        have hsk : skipped p it c' = skipped p it c := by
          unfold skipped
          cases hh : p.hierarchical with
          | none => rfl
          | some groups => dsimp only; rw [hc.hierarchical groups hh]
        rw [hsk]
        have hr : (if it = 0 then { fs.relabel (β i) with factors := fun _ => 0 } else fs.relabel (β i) : FState K)
            = (if it = 0 then { fs with factors := fun _ => 0 } else fs : FState K).relabel (β i) := by
          split <;> rfl
        rw [hr]
        generalize (if it = 0 then { fs with factors := fun _ => 0 } else fs : FState K) = fs1
        by_cases hs : skipped p it c = true
        · simp only [hs, if_true]
          have := ih cfgs' (i + 1) hf hall' fss pr pr' h
          exact ⟨by rw [this.1]; rfl, this.2⟩
        · have h1 := relabel_featureIteration p ho it i hci hc dv isd il fs1 pr pr' h
          have := ih cfgs' (i + 1) hf hall' fss _ _ h1.2
          simp only [hs]
          refine ⟨?_, ?_⟩
          · rw [if_neg (by simp), if_neg (by simp), this.1, h1.1]
          · rw [if_neg (by simp), if_neg (by simp)]; exact this.2

theorem relabel_removePreds {β : ℕ → Equiv.Perm ℕ} : ∀ (cfgs cfgs' : List FeatureCfg) (i : ℕ), CfgsRel H N β i cfgs cfgs' →
    ∀ (fss : List (FState K)) (pr pr' : Pred K), PredRel N pr pr' →
      (∃ e, removePreds cfgs fss pr = .error e ∧ removePreds cfgs' (relabelStates β i fss) pr' = .error e) ∨
      (∃ f q q', removePreds cfgs fss pr = .ok (f, q) ∧
        removePreds cfgs' (relabelStates β i fss) pr' = .ok (relabelStates β i f, q') ∧ PredRel N q q') := by
  intro cfgs
  induction cfgs with
  | nil =>
    intro cfgs' i hf fss pr pr' h
    cases cfgs' with
    | nil => exact Or.inr ⟨[], pr, pr', by unfold removePreds; rfl, by unfold removePreds; rfl, h⟩
    | cons c' cfgs' => exact absurd hf (by simp [CfgsRel])
  | cons c cfgs ih =>
    intro cfgs' i hf fss pr pr' h
    cases cfgs' with
    | nil => exact absurd hf (by simp [CfgsRel])
    | cons c' cfgs' =>
      obtain ⟨hc, hf⟩ := hf
      cases fss with
      | nil => exact Or.inr ⟨[], pr, pr', rfl, rfl, h⟩
      | cons fs fss =>
        unfold relabelStates removePreds
        cases hagg : fs.agg with
        | none =>
          have : (fs.relabel (β i)).agg = none := by simp [FState.relabel, hagg]
          rw [this]
          exact Or.inl ⟨_, rfl, rfl⟩
        | some agg =>
          have : (fs.relabel (β i)).agg = some fun b => agg ((β i).symm b) := by simp [FState.relabel, hagg]
          rw [this]
          dsimp only
          have h1 := relabel_remove hc fs pr pr' h
          rcases ih cfgs' (i + 1) hf fss _ _ h1 with ⟨e, e1, e2⟩ | ⟨f, q, q', e1, e2, hq⟩
          · rw [e1, e2]; exact Or.inl ⟨e, rfl, rfl⟩
          · rw [e1, e2]
            exact Or.inr ⟨_, q, q', rfl, rfl, hq⟩

theorem relabel_factorDeviation {β : Equiv.Perm ℕ} {c c' : FeatureCfg} (hc : CfgRel H N β c c') (fs : FState K) :
    factorDeviation c' (fs.relabel β) = factorDeviation c fs := by
  unfold factorDeviation
  rw [hc.nFinite]
  congr 1
  have hsum : ∀ f : ℕ → K, ((List.range (c.nFinite + 1)).map f).sum = ∑ b ∈ Finset.range (c.nFinite + 1), f b := by
    intro f
    rfl
  rw [hsum, hsum, Finset.sum_range_succ, Finset.sum_range_succ]
  have h := hc.numbering.symm
  show (∑ b ∈ Finset.range c.nFinite, |fs.factors (β.symm b) - fs.factorsOld (β.symm b)|)
      + |fs.factors (β.symm c.nFinite) - fs.factorsOld (β.symm c.nFinite)| = _
  rw [h.missing, h.sum_range fun b => |fs.factors b - fs.factorsOld b|]

theorem CfgsRel.length {β : ℕ → Equiv.Perm ℕ} : ∀ (cfgs cfgs' : List FeatureCfg) (i : ℕ), CfgsRel H N β i cfgs cfgs' →
    cfgs'.length = cfgs.length := by
  intro cfgs
  induction cfgs with
  | nil =>
    intro cfgs' i hf
    cases cfgs' with
    | nil => rfl
    | cons c' cfgs' => exact absurd hf (by simp [CfgsRel])
  | cons c cfgs ih =>
    intro cfgs' i hf
    cases cfgs' with
    | nil => exact absurd hf (by simp [CfgsRel])
    | cons c' cfgs' => rw [List.length_cons, List.length_cons, ih cfgs' (i + 1) hf.2]

theorem relabel_factorsDeviation {β : ℕ → Equiv.Perm ℕ} (cfgs cfgs' : List FeatureCfg) (i : ℕ) (hf : CfgsRel H N β i cfgs cfgs')
    (fss : List (FState K)) : factorsDeviation cfgs' (relabelStates β i fss) = factorsDeviation cfgs fss := by
  unfold factorsDeviation
  rw [hf.length]
  congr 2
  induction cfgs generalizing cfgs' i fss with
  | nil =>
    cases cfgs' with
    | nil => rfl
    | cons c' cfgs' => exact absurd hf (by simp [CfgsRel])
  | cons c cfgs ih =>
    cases cfgs' with
    | nil => exact absurd hf (by simp [CfgsRel])
    | cons c' cfgs' =>
      cases fss with
      | nil => rfl
      | cons fs fss =>
        unfold relabelStates
        rw [List.zipWith_cons_cons, List.zipWith_cons_cons, ih _ _ hf.2, relabel_factorDeviation hf.1]

/-- States of the two trainings that agree up to the numberings. -/
structure StateRel (N : ℕ) (β : ℕ → Equiv.Perm ℕ) (s s' : TState K) : Prop where
  rest : { s' with pred := s.pred, prediction := s.prediction } = { s with feats := relabelStates β 0 s.feats }
  pred : PredRel N s.pred s'.pred
  prediction : PredRel N s.prediction s'.prediction

theorem relabel_iterate (p : Params K) {o o' : Oracle K} {β : ℕ → Equiv.Perm ℕ} (cfgs cfgs' : List FeatureCfg)
    (ho : OracleRel N β cfgs o o') (hf : CfgsRel p.hierarchical N β 0 cfgs cfgs') (s s' : TState K) (h : StateRel N β s s') :
    (∃ e, iterate p o cfgs s = .error e ∧ iterate p o' cfgs' s' = .error e) ∨
    (∃ t t', iterate p o cfgs s = .ok t ∧ iterate p o' cfgs' s' = .ok t' ∧ StateRel N β t t') := by
  obtain ⟨it, pr, fs, dv, isd, l, il, lc, dl, pn⟩ := s
  obtain ⟨it', pr', fs', dv', isd', l', il', lc', dl', pn'⟩ := s'
  obtain ⟨hr, hp, hpn⟩ := h
  simp only [TState.mk.injEq, true_and, and_true] at hr
  obtain ⟨rfl, rfl, rfl, rfl, rfl, rfl, rfl, rfl⟩ := hr
  unfold iterate
  dsimp only at hp ⊢
  have h1 := relabel_featurePass p ho it' dv' isd' il' cfgs cfgs' 0 hf (by intro j c hc; rwa [Nat.zero_add]) fs pr pr' hp
  generalize featurePass p o it' dv' isd' il' 0 cfgs fs pr = a at h1
  generalize featurePass p o' it' dv' isd' il' 0 cfgs' (relabelStates β 0 fs) pr' = a' at h1
  obtain ⟨f, q⟩ := a
  obtain ⟨f', q'⟩ := a'
  obtain ⟨h1, h2⟩ := h1
  simp only at h1 h2
  subst h1
  rw [ho.loss q q' h2, relabel_factorsDeviation cfgs cfgs' 0 hf]
  dsimp only
  cases checkConvergence il' (o.loss q) dv' with
  | error e => exact Or.inl ⟨e, rfl, rfl⟩
  | ok r =>
    obtain ⟨d, isd⟩ := r
    dsimp only
    cases isd with
    | false => exact Or.inr ⟨_, _, rfl, rfl, ⟨rfl, h2, h2⟩⟩
    | true =>
      simp only [if_true]
      rcases relabel_removePreds cfgs cfgs' 0 hf f q q' h2 with ⟨e, e1, e2⟩ | ⟨g, t, t', e1, e2, ht⟩
      · rw [e1, e2]; exact Or.inl ⟨e, rfl, rfl⟩
      · rw [e1, e2]; exact Or.inr ⟨_, _, rfl, rfl, ⟨rfl, ht, h2⟩⟩

theorem StateRel.fields {β : ℕ → Equiv.Perm ℕ} {s s' : TState K} (h : StateRel N β s s') :
    s'.iteration = s.iteration ∧ s'.delta = s.delta ∧ s'.lossChange = s.lossChange ∧ s'.isDiverging = s.isDiverging ∧
      s'.feats = relabelStates β 0 s.feats ∧ s'.initialLoss = s.initialLoss ∧ s'.loss = s.loss ∧
      s'.diverging = s.diverging := by
  have h0 := h.rest
  rw [TState.mk.injEq] at h0
  obtain ⟨a1, -, a3, a4, a5, a6, a7, a8, a9, -⟩ := h0
  exact ⟨a1, a9, a8, a5, a3, a7, a6, a4⟩

theorem relabel_loop (p : Params K) {o o' : Oracle K} {β : ℕ → Equiv.Perm ℕ} (cfgs cfgs' : List FeatureCfg)
    (ho : OracleRel N β cfgs o o') (hf : CfgsRel p.hierarchical N β 0 cfgs cfgs') : ∀ (fuel : ℕ) (s s' : TState K), StateRel N β s s' →
    (loop p o cfgs fuel s = .outOfFuel ∧ loop p o' cfgs' fuel s' = .outOfFuel) ∨
    (∃ e, loop p o cfgs fuel s = .failed e ∧ loop p o' cfgs' fuel s' = .failed e) ∨
    (∃ t t', loop p o cfgs fuel s = .done t ∧ loop p o' cfgs' fuel s' = .done t' ∧ StateRel N β t t') := by
  have hcont : ∀ s s' : TState K, StateRel N β s s' → continues p s' = continues p s := by
    intro s s' h
    obtain ⟨h1, h2, h3, h4, -⟩ := h.fields
    unfold continues
    rw [h1, h2, h3, h4]
  intro fuel
  induction fuel with
  | zero =>
    intro s s' h
    unfold loop
    rw [hcont s s' h]
    split
    · exact Or.inl ⟨rfl, rfl⟩
    · exact Or.inr (Or.inr ⟨s, s', rfl, rfl, h⟩)
  | succ fuel ih =>
    intro s s' h
    unfold loop
    rw [hcont s s' h]
    split
    · rcases relabel_iterate p cfgs cfgs' ho hf s s' h with ⟨e, e1, e2⟩ | ⟨t, t', e1, e2, ht⟩
      · rw [e1, e2]; exact Or.inr (Or.inl ⟨e, rfl, rfl⟩)
      · rw [e1, e2]; exact ih t t' ht
    · exact Or.inr (Or.inr ⟨s, s', rfl, rfl, h⟩)

theorem relabel_prepareFeatures {β : ℕ → Equiv.Perm ℕ} : ∀ (fss : List (FState K)) (i : ℕ),
    prepareFeatures (relabelStates β i fss) = (prepareFeatures fss).map (relabelFactors β i) := by
  intro fss
  induction fss with
  | nil => intro i; rfl
  | cons fs fss ih =>
    intro i
    unfold relabelStates prepareFeatures
    obtain ⟨f, fo, agg, isF, z⟩ := fs
    cases agg with
    | none => rfl
    | some a =>
      simp only [FState.relabel, Option.map_some, ih]
      cases prepareFeatures fss <;> rfl

/-- The outcome of `_fit_main` is the same up to the numberings. -/
theorem relabel_fitMain (p : Params K) {o o' : Oracle K} {β : ℕ → Equiv.Perm ℕ} (cfgs cfgs' : List FeatureCfg)
    (ho : OracleRel N β cfgs o o') (hf : CfgsRel p.hierarchical N β 0 cfgs cfgs') (prior prior' : ℕ → K)
    (h0 : ∀ s < N, prior' s = prior s) (fuel : ℕ) :
    (fitMain p o cfgs prior fuel = none ∧ fitMain p o' cfgs' prior' fuel = none) ∨
    (∃ e, fitMain p o cfgs prior fuel = some (.error e) ∧ fitMain p o' cfgs' prior' fuel = some (.error e)) ∨
    (∃ r r', fitMain p o cfgs prior fuel = some (.ok r) ∧ fitMain p o' cfgs' prior' fuel = some (.ok r') ∧
      r'.factors = relabelFactors β 0 r.factors ∧ r'.iterations = r.iterations ∧ PredRel N r.prediction r'.prediction) := by
  have hp0 : PredRel N (⟨prior, fun _ => 0⟩ : Pred K) ⟨prior', fun _ => 0⟩ := fun s hs => ⟨h0 s hs, rfl⟩
  have hs : StateRel N β (startState o cfgs prior) (startState o' cfgs' prior') := by
    refine ⟨?_, hp0, hp0⟩
    unfold startState
    have : ∀ i, (cfgs'.map fun _ => (FState.init : FState K)) = relabelStates β i (cfgs.map fun _ => FState.init) := by
      clear hp0 ho h0
      intro i
      rw [List.map_const', List.map_const', hf.length]
      generalize cfgs.length = k
      induction k generalizing i with
      | zero => rfl
      | succ k ih => rw [List.replicate_succ]; unfold relabelStates; rw [← ih (i + 1)]; rfl
    dsimp only
    rw [this 0, ho.loss _ _ hp0]
  unfold fitMain
  rcases relabel_loop p cfgs cfgs' ho hf fuel _ _ hs with ⟨e1, e2⟩ | ⟨e, e1, e2⟩ | ⟨t, t', e1, e2, ht⟩
  · rw [e1, e2]; exact Or.inl ⟨rfl, rfl⟩
  · rw [e1, e2]; exact Or.inr (Or.inl ⟨e, rfl, rfl⟩)
  · rw [e1, e2]
    dsimp only
    obtain ⟨h1, -, -, -, h5, h6, h7, h8⟩ := ht.fields
    rw [h5, relabel_prepareFeatures]
    cases prepareFeatures t.feats with
    | error e => exact Or.inr (Or.inl ⟨e, rfl, rfl⟩)
    | ok fac =>
      dsimp only [Except.map]
      rw [h6, h7, h8]
      cases checkConvergence t.initialLoss t.loss t.diverging with
      | error e => exact Or.inr (Or.inl ⟨e, rfl, rfl⟩)
      | ok r => exact Or.inr (Or.inr ⟨_, _, rfl, rfl, rfl, h1, ht.prediction⟩)

end
end CB
