import Verif.Spec.FeatureLookup

/-!
# C159: features are found by the names they were declared with
-/

set_option autoImplicit false
set_option linter.unusedSectionVars false

namespace CB
open Spec

theorem denotes_id {arg : GroupArg} {g : List String} {t : FType} (h : Denotes arg g t) : createFeatureId .standard arg = ⟨g, t⟩ := by
  cases h <;> rfl

theorem id_denotes (arg : GroupArg) : Denotes arg (createFeatureId .standard arg).group (createFeatureId .standard arg).ftype := by
  cases arg with
  | name s => exact .name s
  | tuple g => exact .tuple g
  | id f => exact .id f

theorem findFeature_ok (id : FeatureId) (fs : List ListedFeature) (f : ListedFeature) :
    findFeature id fs = .ok f ↔ ∃ k : ℕ, fs[k]? = some f ∧ f.id = id ∧ ∀ j < k, ∀ f' : ListedFeature, fs[j]? = some f' → f'.id ≠ id := by
  induction fs with
  | nil => simp [findFeature]
  | cons a fs ih =>
    unfold findFeature
    split_ifs with ha
    · constructor
      · intro h
        cases h
        exact ⟨0, rfl, ha, fun j hj => by omega⟩
      · rintro ⟨k, hk, -, hfirst⟩
        cases k with
        | zero => simp only [List.getElem?_cons_zero, Option.some.injEq] at hk; rw [hk]
        | succ k => exact absurd ha (hfirst 0 (by omega) a rfl)
    · rw [ih]
      constructor
      · rintro ⟨k, hk, hf, hfirst⟩
        refine ⟨k + 1, by simpa using hk, hf, fun j hj f' hf' => ?_⟩
        cases j with
        | zero => simp only [List.getElem?_cons_zero, Option.some.injEq] at hf'; rw [← hf']; exact ha
        | succ j => exact hfirst j (by omega) f' (by simpa using hf')
      · rintro ⟨k, hk, hf, hfirst⟩
        cases k with
        | zero => simp only [List.getElem?_cons_zero, Option.some.injEq] at hk; rw [hk] at ha; exact absurd hf ha
        | succ k => exact ⟨k, by simpa using hk, hf, fun j hj f' hf' => hfirst (j + 1) (by omega) f' (by simpa using hf')⟩

theorem findFeature_error (id : FeatureId) (fs : List ListedFeature) (h : ∀ f ∈ fs, f.id ≠ id) : findFeature id fs = .error "KeyError" := by
  induction fs with
  | nil => rfl
  | cons a fs ih =>
    unfold findFeature
    rw [if_neg (h a List.mem_cons_self)]
    exact ih fun f hf => h f (List.mem_cons_of_mem _ hf)

/-- **C159.** `features[name]` is the first feature with the columns and the type that the name stands for. -/
theorem C159_lookup (fs : List ListedFeature) (arg : GroupArg) (g : List String) (t : FType) (h : Denotes arg g t) (f : ListedFeature) :
    getItem fs arg = .ok f ↔
      ∃ k : ℕ, fs[k]? = some f ∧ f.id = ⟨g, t⟩ ∧ ∀ j < k, ∀ f' : ListedFeature, fs[j]? = some f' → f'.id ≠ ⟨g, t⟩ := by
  unfold getItem
  rw [denotes_id h]
  exact findFeature_ok _ fs f

/-- **C159.** It fails, with a `KeyError`, exactly if there is no such feature. -/
theorem C159_unknown (fs : List ListedFeature) (arg : GroupArg) (g : List String) (t : FType) (h : Denotes arg g t) :
    getItem fs arg = .error "KeyError" ↔ ∀ f ∈ fs, f.id ≠ ⟨g, t⟩ := by
  constructor
  · intro he f hf hid
    unfold getItem at he
    rw [denotes_id h] at he
    induction fs with
    | nil => cases hf
    | cons a fs ih =>
      unfold findFeature at he
      split_ifs at he with ha
      rcases List.mem_cons.mp hf with rfl | hf
      · exact ha hid
      · exact ih he hf
  · intro hno
    unfold getItem
    rw [denotes_id h]
    exact findFeature_error _ fs hno

theorem createFeatureList_get (choice : Choice) (props : Option (List (String × ℕ))) (args : List GroupArg) (fs : List ListedFeature)
    (h : createFeatureList choice props args = .ok fs) (k : ℕ) :
    fs.length = args.length ∧ ∀ arg, args[k]? = some arg →
      ∃ kind, fs[k]? = some ⟨createFeatureId .standard arg, kind, false⟩ ∧
        smootherForGroup choice props (createFeatureId .standard arg).group = .ok kind := by
  induction args generalizing fs k with
  | nil =>
    simp only [createFeatureList, Except.ok.injEq] at h
    subst h
    simp
  | cons a args ih =>
    simp only [createFeatureList] at h
    split at h
    · cases h
    · rename_i kind hk
      split at h
      · cases h
      · rename_i rest hrest
        simp only [Except.ok.injEq] at h
        subst h
        refine ⟨by rw [List.length_cons, List.length_cons, (ih rest hrest 0).1], fun arg harg => ?_⟩
        cases k with
        | zero =>
          simp only [List.getElem?_cons_zero, Option.some.injEq] at harg
          subst harg
          exact ⟨kind, rfl, hk⟩
        | succ k =>
          simp only [List.getElem?_cons_succ] at harg ⊢
          exact (ih rest hrest k).2 arg harg

/-- **C159.** After the features were created from the declared names, no two of which stand for the same columns and type, each of them is
found under every name for it: the one it was declared with, its columns as a tuple, for one column the plain name, and its id. What is found
has the smoother that was chosen for these columns. -/
theorem C159_declared (choice : Choice) (props : Option (List (String × ℕ))) (args : List GroupArg) (fs : List ListedFeature)
    (h : createFeatureList choice props args = .ok fs)
    (distinct : ∀ (j k : ℕ) (a b : GroupArg) (g : List String) (t : FType), args[j]? = some a → args[k]? = some b → Denotes a g t → Denotes b g t → j = k)
    (k : ℕ) (arg arg' : GroupArg) (g : List String) (t : FType) (hk : args[k]? = some arg) (ha : Denotes arg g t) (ha' : Denotes arg' g t) :
    ∃ kind, smootherForGroup choice props g = .ok kind ∧ fs[k]? = some ⟨⟨g, t⟩, kind, false⟩ ∧
      getItem fs arg' = .ok ⟨⟨g, t⟩, kind, false⟩ := by
  obtain ⟨kind, h1, h2⟩ := (createFeatureList_get choice props args fs h k).2 arg hk
  rw [denotes_id ha] at h1 h2
  refine ⟨kind, h2, h1, (C159_lookup fs arg' g t ha' _).mpr ⟨k, h1, rfl, fun j hj f' hf' hid => ?_⟩⟩
  have hlen := (createFeatureList_get choice props args fs h j).1
  have hjl : j < args.length := by
    rw [← hlen]
    by_contra hc
    rw [List.getElem?_eq_none (not_lt.mp hc)] at hf'; cases hf'
  obtain ⟨kind', h3, -⟩ := (createFeatureList_get choice props args fs h j).2 args[j] (List.getElem?_eq_getElem hjl)
  rw [hf', Option.some.injEq] at h3
  have hd := id_denotes args[j]
  have e : createFeatureId .standard args[j] = ⟨g, t⟩ := by rw [← hid, h3]
  rw [e] at hd
  exact absurd (distinct j k args[j] arg g t (List.getElem?_eq_getElem hjl) hk hd ha) (by omega)

/-- **C159, several features of the same columns and type.** Only the first of them can be found. -/
theorem C159_duplicates (fs : List ListedFeature) (j k : ℕ) (f f' : ListedFeature) (hjk : j < k) (hj : fs[j]? = some f) (hk : fs[k]? = some f')
    (hid : f.id = f'.id) (arg : GroupArg) (found : ListedFeature) (h : getItem fs arg = .ok found) (hf : found.id = f'.id) :
    ∃ i ≤ j, fs[i]? = some found := by
  obtain ⟨i, hi, -, hfirst⟩ := (C159_lookup fs arg _ _ (id_denotes arg) found).mp h
  refine ⟨i, ?_, hi⟩
  by_contra hc
  have h2 := (C159_lookup fs arg _ _ (id_denotes arg) found).mp h
  obtain ⟨i', hi', hid', -⟩ := h2
  refine hfirst j (not_le.mp hc) f hj ?_
  rw [hid, ← hf, hid']

/-- **C159.** `get_feature` looks for the columns with the type that is passed; the type of an id wins. -/
theorem C159_get_feature (fs : List ListedFeature) (t : FType) :
    (∀ s, getFeature fs (.name s) t = getItem fs (.id ⟨[s], t⟩)) ∧
      (∀ g, getFeature fs (.tuple g) t = getItem fs (.id ⟨g, t⟩)) ∧
      (∀ i, getFeature fs (.id i) t = getItem fs (.id i)) ∧
      ∀ arg, getFeature fs arg .standard = getItem fs arg :=
  ⟨fun _ => rfl, fun _ => rfl, fun _ => rfl, fun arg => by cases arg <;> rfl⟩

/-- **C159.** An external feature is not found under its columns alone. -/
theorem C159_external (fs : List ListedFeature) (g : List String) (f : ListedFeature) (h : getItem fs (.tuple g) = .ok f) :
    f.id.ftype = .standard := by
  obtain ⟨-, -, hid, -⟩ := (C159_lookup fs _ _ _ (.tuple g) f).mp h
  rw [hid]

/-- **C159.** `iter_fitting` yields the features that are not stopped, in their order and each as often as it is there. -/
theorem C159_iter_fitting (fs : List ListedFeature) : iterFitting fs = fs.filter fun f => f.stopIterations = false := by
  induction fs with
  | nil => rfl
  | cons a fs ih =>
    unfold iterFitting
    rw [ih]
    cases hs : a.stopIterations <;> simp [hs]

/-- **C159.** `get_subestimators_as_items` lists nothing as prototypes; otherwise, for a fitted estimator, the ids with the smoothers in the
order of the features, and for one that is not fitted it fails. The smoother of an id that occurs once is that of the feature that is found
under this id. -/
theorem C159_subestimators (features : Option (List ListedFeature)) :
    subestimatorsAsItems features true = .ok [] ∧
      (subestimatorsAsItems features false = .error "ValueError" ↔ features = none) ∧
      ∀ items, subestimatorsAsItems features false = .ok items → ∃ fs, features = some fs ∧ items.length = fs.length ∧
        (∀ (k : ℕ) (f : ListedFeature), fs[k]? = some f → items[k]? = some (f.id, f.smoother)) ∧
        ∀ id s, (id, s) ∈ items → (∀ s', (id, s') ∈ items → s' = s) → ∃ f, getItem fs (.id id) = .ok f ∧ f.smoother = s := by
  refine ⟨rfl, ?_, ?_⟩
  · cases features <;> simp [subestimatorsAsItems]
  · intro items h
    cases features with
    | none => simp [subestimatorsAsItems] at h
    | some fs =>
      simp only [subestimatorsAsItems, Bool.false_eq_true, if_false, Except.ok.injEq] at h
      subst h
      refine ⟨fs, rfl, by simp, fun k f hf => by rw [List.getElem?_map, hf]; rfl, fun id s hmem huniq => ?_⟩
      obtain ⟨f, hf, he⟩ := List.mem_map.mp hmem
      rw [Prod.mk.injEq] at he
      cases hg : getItem fs (.id id) with
      | ok f' =>
        refine ⟨f', rfl, huniq _ ?_⟩
        obtain ⟨k, hk, hid, -⟩ := (C159_lookup fs _ _ _ (.id id) f').mp hg
        exact List.mem_map.mpr ⟨f', List.mem_of_getElem? hk, by rw [hid]⟩
      | error e =>
        exfalso
        have hall : ∀ (l : List ListedFeature) (e : String), findFeature id l = .error e → e = "KeyError" := by
          intro l
          induction l with
          | nil => intro e he; simp only [findFeature, Except.error.injEq] at he; exact he.symm
          | cons a l ih =>
            intro e he
            unfold findFeature at he
            split_ifs at he
            exact ih e he
        rw [hall fs e hg] at hg
        exact (C159_unknown fs _ _ _ (.id id)).mp hg f hf he.1

/-- **C159.** A smoother choice accepts explicit smoothers exactly if their keys are tuples of strings and the values smoothers, and uses
them for these columns: in a fit with one of the choices that smooth, the smoother of such a feature is the explicit one, wrapped as chosen. -/
theorem C159_explicit (kind : ChoiceKind) (r z : Bool) (d : List (ExplicitKey × Option SmootherKind)) :
    (∀ c, smootherChoice kind r z (some d) = .ok c → ∃ proper, ProperSmoothers d proper ∧ c = ⟨kind, r, z, proper⟩) ∧
      (∀ proper, ProperSmoothers d proper → smootherChoice kind r z (some d) = .ok ⟨kind, r, z, proper⟩) ∧
      ∀ e, smootherChoice kind r z (some d) = .error e → e = "ValueError" ∧ ¬ ∃ proper, ProperSmoothers d proper := by
  have hproper : ∀ proper, ProperSmoothers d proper → validateExplicitSmoothers (some d) = .ok proper := by
    intro proper h
    have h1 : (d.all fun p => isTupleOfStrings p.1) = true := by
      rw [List.all_eq_true]
      intro p hp
      rw [h] at hp
      obtain ⟨q, -, rfl⟩ := List.mem_map.mp hp
      simp [isTupleOfStrings]
    have h2 : (d.all fun p => p.2.isSome) = true := by
      rw [List.all_eq_true]
      intro p hp
      rw [h] at hp
      obtain ⟨q, -, rfl⟩ := List.mem_map.mp hp
      rfl
    simp only [validateExplicitSmoothers, h1, h2, Bool.not_true, Bool.false_eq_true, if_false, Except.ok.injEq]
    rw [h]
    clear h h1 h2
    induction proper with
    | nil => rfl
    | cons p proper ih =>
      rw [List.map_cons, List.filterMap_cons_some (b := p) (by simp), ih]
  have hconv : ∀ l, validateExplicitSmoothers (some d) = .ok l → ProperSmoothers d l := by
    intro l h
    simp only [validateExplicitSmoothers] at h
    split_ifs at h with h1 h2
    simp only [Bool.not_eq_true', Bool.not_eq_false] at h1 h2
    have : ∃ proper, ProperSmoothers d proper := by
      clear h hproper
      induction d with
      | nil => exact ⟨[], rfl⟩
      | cons p d ih =>
        rw [List.all_cons, Bool.and_eq_true] at h1 h2
        obtain ⟨proper, hp⟩ := ih h1.2 h2.2
        obtain ⟨key, val⟩ := p
        cases key with
        | noTuple => simp [isTupleOfStrings] at h1
        | tuple entries =>
          cases val with
          | none => simp at h2
          | some s =>
            refine ⟨(entries.filterMap id, s) :: proper, ?_⟩
            unfold ProperSmoothers at hp ⊢
            rw [List.map_cons, ← hp]
            congr 3
            have he := h1.1
            simp only [isTupleOfStrings] at he
            clear hp h1 h2 ih
            induction entries with
            | nil => rfl
            | cons o entries ih =>
              rw [List.all_cons, Bool.and_eq_true] at he
              cases o with
              | none => simp at he
              | some x =>
                rw [List.filterMap_cons_some (f := id) rfl, List.map_cons, ← ih he.2]
    obtain ⟨proper, hp⟩ := this
    have h3 := hproper proper hp
    simp only [validateExplicitSmoothers] at h3
    rw [if_neg (by rw [h1]; simp), if_neg (by rw [h2]; simp)] at h3
    rw [h] at h3
    cases h3
    exact hp
  refine ⟨fun c hc => ?_, fun proper hp => ?_, fun e he => ?_⟩
  · unfold smootherChoice at hc
    split at hc
    · cases hc
    · rename_i l hl
      cases hc
      exact ⟨l, hconv l hl, rfl⟩
  · unfold smootherChoice
    rw [hproper proper hp]
  · unfold smootherChoice at he
    split at he
    · rename_i e' hl
      cases he
      refine ⟨?_, fun ⟨proper, hp⟩ => ?_⟩
      · simp only [validateExplicitSmoothers] at hl
        split_ifs at hl <;> cases hl <;> rfl
      · rw [hproper proper hp] at hl; cases hl
    · cases he

/-- **C159.** The explicit smoother of a feature is used in a fit, whether the feature was declared by the plain name or by a tuple. -/
theorem C159_explicit_used (kind : ChoiceKind) (hkind : kind ≠ .noSmoother) (r z : Bool) (d : List (ExplicitKey × Option SmootherKind))
    (proper : List (List String × SmootherKind)) (hd : ProperSmoothers d proper) (nodup : (proper.map (·.1)).Nodup)
    (g : List String) (s : SmootherKind) (hs : (g, s) ∈ proper) (c : Choice) (hc : smootherChoice kind r z (some d) = .ok c)
    (props : Option (List (String × ℕ))) (arg : GroupArg) (t : FType) (ha : Denotes arg g t) (fs : List ListedFeature)
    (h : createFeatureList c props [arg] = .ok fs) :
    ∃ f, fs = [f] ∧ f.id = ⟨g, t⟩ ∧ c.wrap s (readFeatureProperty props g Flags.HAS_MISSING) = .ok f.smoother := by
  rw [(C159_explicit kind r z d).2.1 proper hd] at hc
  cases hc
  obtain ⟨hlen, hget⟩ := createFeatureList_get _ props [arg] fs h 0
  obtain ⟨k, h1, h2⟩ := hget arg rfl
  match fs, hlen, h1 with
  | [f], _, h1 =>
    simp only [List.getElem?_cons_zero, Option.some.injEq] at h1
    rw [denotes_id ha] at h1 h2
    refine ⟨f, rfl, by rw [h1], ?_⟩
    have hfind : proper.find? (fun p => decide (p.1 = g)) = some (g, s) := by
      clear h h1 h2 hget hlen hd
      induction proper with
      | nil => cases hs
      | cons p proper ih =>
        rw [List.map_cons, List.nodup_cons] at nodup
        rw [List.find?_cons]
        by_cases hp : p.1 = g
        · rcases List.mem_cons.mp hs with rfl | hs
          · simp
          · exact absurd (List.mem_map.mpr ⟨(g, s), hs, hp.symm⟩) nodup.1
        · rcases List.mem_cons.mp hs with rfl | hs
          · exact absurd rfl hp
          · simp only [hp, decide_false]
            exact ih nodup.2 hs
    have hexp : (Choice.mk kind r z proper).explicitFor g = some s := by
      unfold Choice.explicitFor
      rw [hfind]
      rfl
    rw [h1]
    unfold smootherForGroup Choice.choose at h2
    cases kind with
    | noSmoother => exact absurd rfl hkind
    | weightedMean => dsimp only at h2; rw [hexp] at h2; exact h2
    | groupBy => dsimp only at h2; rw [hexp] at h2; exact h2

/-- Witness: three features, two declared differently, one of them external; the plain name finds the standard one. -/
example : ∃ fs, createFeatureList ⟨.weightedMean, true, true, []⟩ none [.name "a", .tuple ["a", "b"], .id ⟨["a"], .external⟩] = .ok fs ∧
    (∃ f, getItem fs (.tuple ["a"]) = .ok f ∧ fs[0]? = some f) ∧ (∃ f, getFeature fs (.name "a") .external = .ok f ∧ fs[2]? = some f) ∧
    getItem fs (.name "b") = .error "KeyError" := by
  refine ⟨_, rfl, ⟨_, rfl, rfl⟩, ⟨_, rfl, rfl⟩, rfl⟩

/-- Witness for `C159_explicit` and `C159_explicit_used`, and a dictionary that is refused: its key is a string. -/
example : (∃ c fs, smootherChoice .weightedMean true true (some [(.tuple [some "a"], some (.isotonic none))]) = .ok c ∧
      createFeatureList c none [.name "a"] = .ok fs) ∧
    smootherChoice .weightedMean true true (some [(.noTuple, some (.isotonic none))]) = .error "ValueError" :=
  ⟨⟨_, _, rfl, rfl⟩, rfl⟩

end CB
