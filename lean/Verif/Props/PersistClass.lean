import Verif.Props.PersistAnalyzer

/-!
# C106: files and classes; C58: nothing is lost
-/

set_option linter.unusedSectionVars false
set_option linter.unusedVariables false

namespace Kinisi
open Spec
variable {K : Type} {D : Type}

/-- The names of the curves. -/
def curveProperty : AnalyzerClass → String
  | .diffusion => "msd"
  | .jump => "mstd"
  | .conductivity => "mscd"

section
variable [Field K] [LinearOrder K] [IsStrictOrderedRing K] [FloorRing K] {G : Type}

/-- **C59, values.** After saving and loading, the intervals, displacements, numbers of observations and volume of the analyzer and the times, values, uncertainties, variances and numbers of observations of its curve are the numbers that were saved. -/
theorem C59_values {limit : ℕ} {a : Analyzer K} (h : Reachable (G := G) 1 a.diff) (hd : a.disp3d ≠ []) (he : a.diff.euclid ≠ []) (mk : List K → D)
    {L : DistLib K D} {S : D → D → Prop} (hL : GoodLib L S) (fs : FS K) (name : Str) (hfree : fs (target name) = none) (hlim : 2 < limit) :
    ∃ fs' a', saveAnalyzer L fs name (ofAnalyzer mk a) = (fs', .ok ()) ∧ loadAnalyzer L limit fs' name = .ok a' ∧
      a'.deltaT = vec a.deltaT ∧ a'.disp3d = .list (a.disp3d.map fun x => .arr (.d3 x)) ∧ a'.nO = vec a.nO ∧ a'.volume = optFloat a.volume ∧
      a'.diff.dt = vec a.diff.dt ∧ a'.diff.n = vec a.diff.n ∧ a'.diff.s = .arr (.d1 a.diff.s) ∧ a'.diff.v = .arr (.d1 a.diff.v) ∧ a'.diff.nO = vec a.diff.nO := by
  obtain ⟨fs', a', h1, h2, h3⟩ := C59_analyzer h hd he mk hL fs name hfree hlim
  have harr : ∀ {x : Nd K} {v : Val K}, Comes (.arr x) v → v = .arr x := fun hc => by cases hc; rfl
  refine ⟨fs', a', h1, h2, harr h3.deltaT, ?_, harr h3.nO, ?_, harr h3.diff.dt, harr h3.diff.n, harr h3.diff.s, harr h3.diff.v, harr h3.diff.nO⟩
  · have hc : Comes (.list (a.disp3d.map fun x => .arr (.d3 x))) a'.disp3d := h3.disp3d
    generalize a'.disp3d = v at hc ⊢
    cases hc with
    | list _ l' hl =>
      congr 1
      generalize a.disp3d = l at hl
      induction l generalizing l' with
      | nil => cases hl; rfl
      | cons x l ih =>
        cases hl with
        | cons hx hl => rw [List.map_cons, harr hx, ih _ hl]
  · have hc : Comes (optFloat a.volume) a'.volume := h3.volume
    generalize a'.volume = v at hc ⊢
    cases hv : a.volume with
    | none => rw [hv] at hc; cases hc; rfl
    | some x => rw [hv] at hc; cases hc; rfl

/-- **C106, what holds.** The base class `Analyzer` rejects the file of an analyzer with a bootstrap object (TypeError), and the analyzers reject the file of the base class
(KeyError).  Missing: the analyzers among each other, see `C106_unchecked` and `C106_violated`. -/
theorem C106_rejects_partial {limit : ℕ} {a : Analyzer K} (h : Reachable (G := G) 1 a.diff) (hd : a.disp3d ≠ []) (he : a.diff.euclid ≠ []) (mk : List K → D)
    {L : DistLib K D} {S : D → D → Prop} (hL : GoodLib L S) (fs : FS K) (name : Str) (hfree : fs (target name) = none) (hlim : 2 < limit) :
    (∃ fs', saveAnalyzer L fs name (ofAnalyzer mk a) = (fs', .ok ()) ∧ loadBase limit fs' name = .error .typeError) ∧
    ∃ fs', save fs name (.ok (baseToDict (vec a.deltaT) (.list (a.disp3d.map fun x => .arr (.d3 x))) (vec a.nO) (optFloat a.volume))) = (fs', .ok ()) ∧
      loadAnalyzer L limit fs' name = .error .keyError := by
  constructor
  · obtain ⟨fs', d', h1, h2, h3, -⟩ := C59_roundtrip (analyzer_saveDoc (reachable_sound h) hd he mk hL) hlim fs name hfree
    refine ⟨fs', h1, ?_⟩
    unfold loadBase
    refine ok_bind h2 ?_
    cases h3 with
    | dict _ _ hn hk hv =>
      have hdiff : (d'.lookup (k! "diff")).isSome = true := by rw [hk]; rfl
      obtain ⟨x, hx, hx'⟩ := List.mem_map.1 (dlookup_isSome.1 hdiff)
      unfold baseFromDict
      split
      · rw [if_neg]
        intro hall
        rw [List.all_eq_true] at hall
        have := hall x hx
        rw [hx'] at this
        revert this
        decide
      · rfl
  · obtain ⟨fs', d', h1, h2, h3, -⟩ := C59_roundtrip (base_saveDoc a.deltaT a.disp3d hd a.nO a.volume) (by omega : 1 < limit) fs name hfree
    refine ⟨fs', h1, ?_⟩
    obtain ⟨v1, i1, -⟩ := comes_item h3 (k := k! "delta_t") rfl
    obtain ⟨v2, i2, -⟩ := comes_item h3 (k := k! "disp_3d") rfl
    obtain ⟨v3, i3, -⟩ := comes_item h3 (k := k! "n_o") rfl
    obtain ⟨v4, i4, -⟩ := comes_item h3 (k := k! "volume") rfl
    unfold loadAnalyzer
    refine ok_bind h2 ?_
    unfold analyzerFromDict
    refine ok_bind i1 (ok_bind i2 (ok_bind i3 (ok_bind i4 ?_)))
    have hnone : d'.lookup (k! "diff") = none := by
      cases h3 with
      | dict _ _ hn hk hv =>
        have := hk (k! "diff")
        rw [show (baseToDict (vec a.deltaT) (.list (a.disp3d.map fun x => Val.arr (.d3 x))) (vec a.nO) (optFloat a.volume)).lookup (k! "diff") = none from rfl] at this
        simpa using this
    have : item (.dict d') (k! "diff") = .error .keyError := by
      unfold item
      simp only [hnone]
    rw [this]
    rfl

/-- **C106 is violated in general**: whatever the classes `c` and `c'`, a file saved by `c` is loaded by `c'` without an exception, with the same attributes; the curve of `c` is
then reported under the name of `c'`. -/
theorem C106_unchecked {limit : ℕ} {a : Analyzer K} (h : Reachable (G := G) 1 a.diff) (hd : a.disp3d ≠ []) (he : a.diff.euclid ≠ []) (mk : List K → D)
    {L : DistLib K D} {S : D → D → Prop} (hL : GoodLib L S) (fs : FS K) (name : Str) (hfree : fs (target name) = none) (hlim : 2 < limit) (c c' : AnalyzerClass) :
    ∃ fs' o, AnalyzerObj.save L fs name ⟨c, ofAnalyzer mk a⟩ = (fs', .ok ()) ∧ c'.load L limit fs' name = .ok o ∧ o.cls = c' ∧
      SameAnalyzer S (ofAnalyzer mk a) o.attrs ∧ ∀ w, o.curve w = if w = curveProperty c' then .ok (vec a.diff.n) else .error .attributeError := by
  obtain ⟨fs', a', h1, h2, h3⟩ := C59_analyzer h hd he mk hL fs name hfree hlim
  refine ⟨fs', ⟨c', a'⟩, h1, ok_bind h2 rfl, rfl, h3, ?_⟩
  intro w
  unfold AnalyzerObj.curve
  have hn : a'.diff.n = vec a.diff.n := by
    have : Comes (vec a.diff.n) a'.diff.n := h3.diff.n
    generalize a'.diff.n = v at this ⊢
    cases this
    rfl
  dsimp only
  rw [hn]
  cases c' <;> rfl

end

/-- The MSCD of three intervals with charges of two: one value, 26. -/
theorem exMscd : ∃ b g, mscdBootstrap id (exOracle ℚ) (exOpts ℚ) () [1, 2, 3] threeDisp (.scalar 2) [2, 2, 2] 1 "xyz" = .ok (b, g) ∧ b.n = [26] ∧ b.euclid ≠ [] := by
  have h1 : (mscdBootstrap id (exOracle ℚ) (exOpts ℚ) () [1, 2, 3] threeDisp (.scalar 2) [2, 2, 2] 1 "xyz").toOption.map (fun r => (r.1.n, decide (r.1.euclid ≠ []))) =
    some ([26], true) := by decide +kernel
  cases h : mscdBootstrap id (exOracle ℚ) (exOpts ℚ) () [1, 2, 3] threeDisp (.scalar 2) [2, 2, 2] 1 "xyz" with
  | error e => rw [h] at h1; cases h1
  | ok r =>
    rw [h] at h1
    simp only [Except.toOption, Option.map_some, Option.some.injEq, Prod.mk.injEq, decide_eq_true_eq] at h1
    exact ⟨r.1, r.2, rfl, h1⟩

/-- **C106 is violated**: `DiffusionAnalyzer.load` of a file saved by a `ConductivityAnalyzer` reports the charge displacement 26 as the MSD of displacements whose MSD is 13/2. -/
theorem C106_violated : ∃ (a : Analyzer ℚ) (fs' : FS ℚ) (o : AnalyzerObj ℚ (List ℚ)),
    AnalyzerObj.save samplesLib (fun _ => none) (k! "run") ⟨.conductivity, ofAnalyzer id a⟩ = (fs', .ok ()) ∧ AnalyzerClass.diffusion.load samplesLib 9 fs' (k! "run") = .ok o ∧
      o.curve "msd" = .ok (vec [26]) ∧
      (msdBootstrap id (exOracle ℚ) (exOpts ℚ) () a.deltaT a.disp3d a.nO 1 "xyz").toOption.map (fun r => r.1.n) = some [13 / 2, 13 / 2, 13 / 2] := by
  obtain ⟨b, g, hb, hn, he⟩ := exMscd
  obtain ⟨fs', o, h1, h2, -, -, h3⟩ := C106_unchecked (a := ⟨⟨[1, 2, 3], threeDisp, [2, 2, 2], some 5⟩, b⟩) (Reachable.mscd hb) (by simp [threeDisp]) he id samplesLib_good
    (fun _ => none) (k! "run") rfl (by decide : 2 < 9) .conductivity .diffusion
  rw [show (Analyzer.diff ⟨⟨[1, 2, 3], threeDisp, [2, 2, 2], some 5⟩, b⟩).n = [26] from hn] at h3
  exact ⟨_, fs', o, h1, h2, h3 "msd", by dsimp only; decide +kernel⟩

/-- **C59_values, C106_rejects_partial and C106_unchecked, the hypotheses are met.** -/
example : ∃ a : Analyzer ℚ, Reachable (G := Unit) 1 a.diff ∧ a.disp3d ≠ [] ∧ a.diff.euclid ≠ [] ∧ GoodLib samplesLib Eq ∧ a.diff.n = [26] := by
  obtain ⟨b, g, hb, hn, he⟩ := exMscd
  exact ⟨⟨⟨[1, 2, 3], threeDisp, [2, 2, 2], some 5⟩, b⟩, .mscd hb, by simp [threeDisp], he, samplesLib_good, hn⟩

section
variable [Field K] [LinearOrder K] [IsStrictOrderedRing K] [FloorRing K] {G : Type}

/-- Objects with equal attribute values are equal, apart from the private attributes that only a running fit uses. -/
theorem ofBoot_saved {b b' : Boot K} {mk : List K → D} (hmk : Function.Injective mk) (e : ofBoot mk b = ofBoot mk b') : SameSaved b b' := by
  have hsome : Function.Injective (fun l : List K => l.map some) := List.map_injective_iff.mpr (Option.some_injective _)
  have hvec : ∀ {l l' : List K}, vec l = vec l' → l = l' := by
    intro l l' hl
    unfold vec at hl
    injection hl with hl
    injection hl with hl
    exact hsome hl
  have hof : ∀ {x y : Option K}, optFloat x = optFloat y → x = y := by
    intro x y hxy
    cases x <;> cases y <;> simp_all [optFloat]
  have hom : ∀ {x y : Option (List K)}, x.map mk = y.map mk → x = y := fun hxy => Option.map_injective hmk hxy
  have hlm : ∀ {x y : List (List K)}, x.map mk = y.map mk → x = y := fun hxy => List.map_injective_iff.mpr hmk hxy
  unfold ofBoot at e
  injection e with e1 e2 e3 e4 e5 e6 e7 e8 e9 e10 e11 e12 e13 e14 e15 e16 e17 e18 e19 e20 e21 e22 e23 e24 e25 e26 e27 e28
  have f1 : b.displacements = b'.displacements := by
    injection e1 with e1
    refine List.map_injective_iff.mpr ?_ e1
    intro x y hxy
    injection hxy with hxy
    injection hxy
  have hd1 : ∀ {l l' : List (Option K)}, (Val.arr (.d1 l) : Val K) = .arr (.d1 l') → l = l' := by
    intro l l' hl
    injection hl with hl
    injection hl
  have f22 : b.flatchain = b'.flatchain := by
    cases hx : b.flatchain <;> cases hy : b'.flatchain <;> simp only [hx, hy] at e22
    · rfl
    · cases e22
    · cases e22
    · injection e22 with e22
      injection e22 with e22
      exact congrArg some (List.map_injective_iff.mpr hsome e22)
  have f23 : b.covariance = b'.covariance := by
    cases hx : b.covariance <;> cases hy : b'.covariance <;> simp only [hx, hy] at e23
    · rfl
    · cases e23
    · cases e23
    · injection e23 with e23
      injection e23 with e23
      exact congrArg some e23
  have f27 : b.model = b'.model := by
    cases hx : b.model <;> cases hy : b'.model <;> simp only [hx, hy] at e27
    · rfl
    · cases e27
    · cases e27
    · injection e27 with e27
      exact congrArg some e27
  have f3 : b.maxObs = b'.maxObs := by injection e3 with e3; exact_mod_cast e3
  have f14 : b.subSampleDt = b'.subSampleDt := by injection e14
  have f15 : b.dimension = b'.dimension := by injection e15 with e15; exact String.toList_injective e15
  unfold SameSaved
  cases b
  cases b'
  simp only at *
  rw [f1, hvec e2, f3, hlm e4, hvec e5, hvec e6, hd1 e7, hd1 e8, hd1 e9, hd1 e10, hd1 e11, hvec e12, hd1 e13, f14, f15, hlm e16, hom e17, hom e18, hom e19, hom e20, hom e21, f22,
    f23, e24, hof e25, e26, f27, hof e28]

/-- **C58, nothing is lost.** Objects with equal dictionaries have equal attributes, apart from the private ones that only a running fit uses. -/
theorem C58_distinct {b b' : Boot K} (h : Reachable (G := G) 1 b) (h' : Reachable (G := G) 1 b') (mk : List K → D) (hmk : Function.Injective mk) (L : DistLib K D)
    (hL : ∀ d, L.fromDict (.dict (L.toDict d)) = .ok d) (he : bootToDict L (ofBoot mk b) = bootToDict L (ofBoot mk b')) : SameSaved b b' := by
  have e := (C58_bootstrap h mk L hL).symm.trans (he ▸ C58_bootstrap h' mk L hL)
  have e := Except.ok.inj e
  exact ofBoot_saved hmk e

end

/-- The MSD and the MSCD of the same displacements have different dictionaries, by `C58_distinct`. -/
example : ∃ b b' : Boot ℚ, Reachable (G := Unit) 1 b ∧ Reachable (G := Unit) 1 b' ∧ bootToDict samplesLib (ofBoot id b) ≠ bootToDict samplesLib (ofBoot id b') := by
  obtain ⟨b, g, hb, hn, he⟩ := exMscd
  have h1 : (msdBootstrap id (exOracle ℚ) (exOpts ℚ) () [1, 2, 3] threeDisp [2, 2, 2] 1 "xyz").toOption.map (fun r => r.1.n) = some [13 / 2, 13 / 2, 13 / 2] := by decide +kernel
  cases h : msdBootstrap id (exOracle ℚ) (exOpts ℚ) () [1, 2, 3] threeDisp [2, 2, 2] 1 "xyz" with
  | error e => rw [h] at h1; cases h1
  | ok r =>
    obtain ⟨b', g'⟩ := r
    rw [h] at h1
    simp only [Except.toOption, Option.map_some, Option.some.injEq] at h1
    refine ⟨b, b', .mscd hb, .msd h, fun heq => ?_⟩
    have := C58_distinct (G := Unit) (.mscd hb) (.msd h) id Function.injective_id samplesLib samplesLib_roundtrip heq
    unfold SameSaved at this
    rw [this] at h1
    simp [hn] at h1

end Kinisi
