import Verif.Lemmas.Select
import Verif.Lemmas.Molecule

/-!
# C20–C26: selection of atoms, framework and molecules
-/

set_option linter.unusedSectionVars false

namespace Kinisi
open Spec
variable {K : Type} [Field K] [LinearOrder K] [IsStrictOrderedRing K] [FloorRing K]

/-- **C20.** Selection by species without explicit framework. -/
theorem C20_species_partition (symbols specie : List String) :
    (getIndices symbols specie none = .error .valueError ∧ ∀ s ∈ symbols, s ∉ specie) ∨
    ∃ sel, getIndices symbols specie none = .ok sel ∧ (∃ s ∈ symbols, s ∈ specie) ∧ sel.drift.isTuple = false ∧
      sel.indices.Pairwise (· < ·) ∧ sel.drift.vals.Pairwise (· < ·) ∧
      (∀ i : ℤ, i ∈ sel.indices ↔ ∃ k, ∃ h : k < symbols.length, i = (k : ℤ) ∧ symbols[k] ∈ specie) ∧
      (∀ i : ℤ, i ∈ sel.drift.vals ↔ ∃ k, ∃ h : k < symbols.length, i = (k : ℤ) ∧ symbols[k] ∉ specie) ∧
      (sel.indices ++ sel.drift.vals).Perm ((List.range symbols.length).map fun k : ℕ => (k : ℤ)) := by
  unfold getIndices
  simp only
  by_cases h : (positions (fun s => specie.contains s) symbols).length = 0
  · left
    rw [if_pos h]
    refine ⟨rfl, fun s hs hmem => ?_⟩
    obtain ⟨k, hk, rfl⟩ := List.getElem_of_mem hs
    have : (k : ℤ) ∈ positions (fun s => specie.contains s) symbols := (mem_positions _ _ _).2 ⟨k, hk, rfl, by simpa using hmem⟩
    rw [List.length_eq_zero_iff.1 h] at this
    simp at this
  · right
    rw [if_neg h]
    have m1 : ∀ i : ℤ, i ∈ positions (fun s => specie.contains s) symbols ↔ ∃ k, ∃ h : k < symbols.length, i = (k : ℤ) ∧ symbols[k] ∈ specie := by
      intro i; rw [mem_positions]; simp
    have m2 : ∀ i : ℤ, i ∈ positions (fun s => !specie.contains s) symbols ↔ ∃ k, ∃ h : k < symbols.length, i = (k : ℤ) ∧ symbols[k] ∉ specie := by
      intro i; rw [mem_positions]; simp
    refine ⟨⟨positions (fun s => specie.contains s) symbols, ⟨false, positions (fun s => !specie.contains s) symbols⟩⟩, rfl, ?_, rfl,
      positions_pairwise (fun s => specie.contains s) symbols, positions_pairwise (fun s => !specie.contains s) symbols, m1, m2, ?_⟩
    · obtain ⟨i, hi⟩ := List.exists_mem_of_length_pos (Nat.pos_of_ne_zero h)
      obtain ⟨k, hk, -, hs⟩ := (m1 i).1 hi
      exact ⟨_, List.getElem_mem hk, hs⟩
    · rw [List.perm_ext_iff_of_nodup]
      · intro i
        rw [List.mem_append, m1, m2, List.mem_map]
        constructor
        · rintro (⟨k, hk, rfl, -⟩ | ⟨k, hk, rfl, -⟩) <;> exact ⟨k, List.mem_range.2 hk, rfl⟩
        · rintro ⟨k, hk, rfl⟩
          have hk' := List.mem_range.1 hk
          by_cases hs : symbols[k] ∈ specie
          · exact Or.inl ⟨k, hk', rfl, hs⟩
          · exact Or.inr ⟨k, hk', rfl, hs⟩
      · rw [List.nodup_append]
        refine ⟨positions_nodup _ _, positions_nodup (fun s => !specie.contains s) symbols, ?_⟩
        rintro a ha b hb rfl
        obtain ⟨k, hk, rfl, hs⟩ := (m1 a).1 ha
        obtain ⟨j, hj, hkj, hs'⟩ := (m2 _).1 hb
        have : k = j := by exact_mod_cast hkj
        subst this
        exact hs' hs
      · exact List.Nodup.map (fun a b h => by exact_mod_cast h) List.nodup_range

/-- **C20**, explicit framework: same selection (or same error), framework exactly as given. -/
theorem C20_explicit_framework (symbols specie : List String) (f : PySeq) :
    getIndices symbols specie (some f) = (getIndices symbols specie none).map fun sel => ⟨sel.indices, f⟩ := by
  unfold getIndices
  simp only
  split_ifs <;> rfl

example : getIndices ["Li", "O", "Na", "Li"] ["Li", "Na"] none = .ok ⟨[0, 2, 3], ⟨false, [1]⟩⟩ ∧
    getIndices ["Li", "O"] ["K"] none = .error .valueError := by decide

/-- **C21, what holds**: with species selection an empty framework list leaves the displacements as they are. -/
theorem C21_species_no_drift_correction_partial (symbols specie : List String) (t : Bool) (sel : Selection)
    (h : getIndices symbols specie (some ⟨t, []⟩) = .ok sel) (disp : Arr3 K) : correctDriftSeq sel.drift disp = .ok disp := by
  unfold getIndices at h
  simp only at h
  split_ifs at h
  obtain rfl := Except.ok.inj h
  simp [correctDriftSeq, correctDrift]

/-- **C21 is violated** for flat `specie_indices`: whenever some atom is not selected the call crashes. -/
theorem C21_violated_flat (natoms : ℕ) (indices : List ℤ) (t : Bool) (k : ℕ) (hk : k < natoms) (hn : (k : ℤ) ∉ indices) :
    getFramework natoms indices (some ⟨t, []⟩) = .error .attributeError := by
  unfold getFramework
  simp only
  rw [if_neg]
  have : (k : ℤ) ∈ ((List.range natoms).map fun i : ℕ => (i : ℤ)).filter fun i => !indices.contains i := by
    rw [range_filter_mem]
    exact ⟨by omega, by exact_mod_cast hk, by simpa using hn⟩
  intro h0
  rw [List.length_eq_zero_iff.1 h0] at this
  simp at this

/-- **C21 is violated** for molecules: an empty framework list never works. -/
theorem C21_violated_molecules (tr : Trig K) (natoms : ℕ) (coords : List (List (V3 K))) (mols : List (List ℤ))
    (masses : Option (List K)) (t : Bool) : ¬ ∃ r, getMolecules tr natoms coords mols masses (some ⟨t, []⟩) = .ok r := by
  rintro ⟨r, h⟩
  have := (getMolecules_inv h).2.2.2.2.1
  simp [floatIndex] at this

example : getFramework 3 [0] (some ⟨false, []⟩) = .error .attributeError :=
  C21_violated_flat 3 [0] false 2 (by norm_num) (by decide)

/-- **C22, what holds.** Without explicit framework (indices counted from the start): the given atoms, all others. -/
theorem C22_flat_selection_partial (natoms : ℕ) (indices : List ℤ) :
    ∃ sel, getFramework natoms indices none = .ok sel ∧ sel.indices = indices ∧ sel.drift.isTuple = false ∧
      ∀ i : ℤ, i ∈ sel.drift.vals ↔ 0 ≤ i ∧ i < natoms ∧ i ∉ indices := by
  refine ⟨_, rfl, rfl, rfl, fun i => ?_⟩
  simp only
  rw [range_filter_mem]
  simp

/-- **C22 is violated**: any explicit framework crashes when an atom is left unselected, and when all atoms are selected the
framework denotes the atoms one place earlier than named. -/
theorem C22_violated_explicit (natoms : ℕ) (indices : List ℤ) (f : PySeq) :
    getFramework natoms indices (some f) =
      if ∃ k : ℕ, k < natoms ∧ (k : ℤ) ∉ indices then .error .attributeError
      else .ok ⟨indices, ⟨false, f.vals.map (· - 1)⟩⟩ := by
  unfold getFramework
  simp only
  by_cases h : ∃ k : ℕ, k < natoms ∧ (k : ℤ) ∉ indices
  · rw [if_pos h]
    obtain ⟨k, hk, hn⟩ := h
    rw [if_neg]
    have : (k : ℤ) ∈ ((List.range natoms).map fun i : ℕ => (i : ℤ)).filter fun i => !indices.contains i := by
      rw [range_filter_mem]
      exact ⟨by omega, by exact_mod_cast hk, by simpa using hn⟩
    intro h0
    rw [List.length_eq_zero_iff.1 h0] at this
    simp at this
  · rw [if_neg h, if_pos]
    rw [List.length_eq_zero_iff, List.filter_eq_nil_iff]
    intro i hi
    obtain ⟨k, hk, rfl⟩ := List.mem_map.1 hi
    push Not at h
    simpa using h k (List.mem_range.1 hk)

example : getFramework 3 [0, 1, 2] (some ⟨false, [1, 2]⟩) = .ok ⟨[0, 1, 2], ⟨false, [0, 1]⟩⟩ ∧
    getFramework 3 [0, 2] (some ⟨false, [1]⟩) = .error .attributeError := by decide

/-- **C26, layout.** Molecules first in the given order, then the framework atoms; `n` is the number of atoms per frame.
Indices of molecules and of an explicit framework are counted from one. -/
theorem C26_molecule_layout (tr : Trig K) (natoms : ℕ) (coords : List (List (V3 K))) (mols : List (List ℤ))
    (masses : Option (List K)) (framework : Option PySeq) (new : List (List (V3 K))) (sel : Selection)
    (h : getMolecules tr natoms coords mols masses framework = .ok (new, sel)) (n : ℕ) (hn : ∀ c ∈ coords, c.length = n)
    (hne : coords ≠ []) :
    ∃ drift : List ℤ,
      (match framework with
        | some f => drift = f.vals.map (· - 1)
        | none => drift.Pairwise (· < ·) ∧ ∀ i : ℤ, i ∈ drift ↔ 0 ≤ i ∧ i < natoms ∧ ∀ m ∈ mols, i + 1 ∉ m) ∧
      sel.indices = (List.range mols.length).map (fun i : ℕ => (i : ℤ)) ∧
      sel.drift = ⟨false, (List.range drift.length).map fun i : ℕ => ((mols.length + i : ℕ) : ℤ)⟩ ∧
      new.length = coords.length ∧
      ∀ j, (hj : j < coords.length) → (hj' : j < new.length) → new[j].length = mols.length + drift.length ∧
        (∀ m, (hm : m < mols.length) → ∃ v, new[j][m]? = some v ∧
          moleculeCentre3 tr masses coords[j] (mols[m].map fun a => atomOf n (a - 1)) = .ok v) ∧
        ∀ k, (hk : k < drift.length) → ValidIdx n drift[k] ∧ ∃ v, coords[j][atomOf n drift[k]]? = some v ∧
          new[j][mols.length + k]? = some v := by
  obtain ⟨-, -, -, -, -, atoms, com, dr, ha, hc, hd, hr⟩ := getMolecules_inv h
  have hn' : (coords.headD []).length = n := by
    cases coords with
    | nil => exact absurd rfl hne
    | cons c cs => exact hn c (by simp)
  rw [hn'] at ha hd
  obtain ⟨ha1, ha2⟩ := mapM_except_inv ha
  obtain ⟨hc1, hc2⟩ := mapM_except_inv hc
  obtain ⟨hd1, hd2⟩ := mapM_except_inv hd
  set drift := moleculeDrift natoms (mols.map fun m => m.map (· - 1)) framework with hdrift
  obtain ⟨rfl, rfl⟩ := Prod.mk.inj hr
  have hnpidx : ∀ {d : ℤ} {v : ℕ}, npIdx n d = .ok v → ValidIdx n d ∧ v = atomOf n d := by
    intro d v hv
    by_cases hval : ValidIdx n d
    · rw [npIdx_valid hval] at hv
      exact ⟨hval, (Except.ok.inj hv).symm⟩
    · rw [npIdx_invalid hval] at hv; cases hv
  refine ⟨drift, ?_, rfl, by rw [hd1], by simp [hc1], ?_⟩
  · cases framework with
    | some f => rfl
    | none =>
      simp only [moleculeDrift] at hdrift
      refine ⟨?_, fun i => ?_⟩
      · rw [hdrift]
        apply List.Pairwise.filter
        rw [List.pairwise_map]
        exact List.pairwise_lt_range.imp fun hab => by exact_mod_cast hab
      · rw [hdrift, range_filter_mem]
        refine and_congr_right fun _ => and_congr_right fun _ => ?_
        simp only [Bool.not_eq_true', List.contains_eq_mem, decide_eq_false_iff_not, List.mem_flatten, List.mem_map, not_exists,
          not_and]
        constructor
        · intro hh m hm hmem
          exact hh _ ⟨m, hm, rfl⟩ (List.mem_map.2 ⟨i + 1, hmem, by ring⟩)
        · rintro hh _ ⟨m, hm, rfl⟩ hmem
          obtain ⟨a, ha, hai⟩ := List.mem_map.1 hmem
          apply hh m hm
          rw [← hai]
          simpa using ha
  · intro j hj hj'
    have hcj := hc2 j hj (by omega)
    obtain ⟨hcm1, hcm2⟩ := mapM_except_inv hcj
    have hnew : (List.zipWith (fun c cs => cs ++ dr.map fun a => c.getD a 0) coords com)[j]
        = com[j] ++ dr.map fun a => coords[j].getD a 0 := by simp
    have hML : com[j].length = mols.length := by rw [hcm1, ha1]; simp
    rw [hnew]
    refine ⟨by simp [hML, hd1], ?_, ?_⟩
    · intro m hm
      refine ⟨com[j][m]'(by omega), ?_, ?_⟩
      · rw [List.getElem?_append_left (by omega), List.getElem?_eq_getElem]
      · have hm1 := hcm2 m (by rw [ha1]; simpa using hm) (by omega)
        have hm2 := ha2 m (by simpa using hm) (by rw [ha1]; simpa using hm)
        rw [List.getElem_map] at hm2
        obtain ⟨hl3, hl4⟩ := mapM_except_inv hm2
        have : atoms[m]'(by rw [ha1]; simpa using hm) = mols[m].map fun a => atomOf n (a - 1) := by
          apply List.ext_getElem
          · simpa using hl3
          · intro q q1 q2
            have := hl4 q (by simpa using q2) q1
            rw [List.getElem_map] at this
            rw [(hnpidx this).2]
            simp
        rw [← this]
        exact hm1
    · intro k hk
      have hk2 := hnpidx (hd2 k hk (by omega))
      refine ⟨hk2.1, ?_⟩
      have hlt : atomOf n drift[k] < coords[j].length := by
        rw [hn _ (List.getElem_mem hj)]
        obtain ⟨v1, v2⟩ := hk2.1
        unfold atomOf
        split_ifs <;> omega
      refine ⟨_, List.getElem?_eq_getElem hlt, ?_⟩
      rw [List.getElem?_append_right (by omega), hML, Nat.add_sub_cancel_left, List.getElem?_map,
        List.getElem?_eq_getElem (by omega), Option.map_some, hk2.2]
      simp [List.getD, hlt]

/-- **C26, errors.** Molecules of unequal length, or masses of the wrong length, are a ValueError. -/
theorem C26_errors (tr : Trig K) (natoms : ℕ) (coords : List (List (V3 K))) (mols : List (List ℤ))
    (masses : Option (List K)) (framework : Option PySeq) :
    ((∃ a ∈ mols, ∃ b ∈ mols, a.length ≠ b.length) → getMolecules tr natoms coords mols masses framework = .error .valueError) ∧
    (∀ m, masses = some m → (∃ a ∈ mols, m.length ≠ a.length) →
      getMolecules tr natoms coords mols masses framework = .error .valueError) := by
  have key : ∀ b : Bool, (mols.all fun m => decide (m.length = (mols.headD []).length)) = b →
      (b = true → ∀ m ∈ mols, m.length = (mols.headD []).length) := by
    rintro b rfl hb m hm
    have := List.all_eq_true.1 hb m hm
    simpa using this
  constructor
  · rintro ⟨a, ha, b, hb, hab⟩
    unfold getMolecules
    simp only
    rw [if_pos]
    by_contra hc
    have h := key _ rfl (by simpa using hc)
    exact hab (by rw [h a ha, h b hb])
  · rintro m rfl ⟨a, ha, hma⟩
    unfold getMolecules
    simp only
    by_cases hc : (mols.all fun m => decide (m.length = (mols.headD []).length)) = false
    · rw [if_pos hc]
    · rw [if_neg hc, if_pos]
      have h := key _ rfl (by simpa using hc)
      simp only [massesFit, decide_eq_false_iff_not]
      rw [← h a ha]
      exact hma

/-- Trigonometry replaced by constants, for examples that only exercise the bookkeeping. -/
def dummyTrig : Trig ℚ := ⟨fun _ => 1, fun _ => 0, fun _ _ => 0, 3⟩

example : getMolecules dummyTrig 4 [[0, 1, 0, 1]] [[1, 2], [3]] none none = .error .valueError :=
  (C26_errors _ _ _ _ _ _).1 ⟨[1, 2], by simp, [3], by simp, by decide⟩

/-- **C23 is violated.** With species the framework list `[1]` means the second atom, with molecules the first. -/
theorem C23_violated :
    getIndices ["Na", "O", "Li"] ["Li"] (some ⟨false, [1]⟩) = .ok ⟨[2], ⟨false, [1]⟩⟩ ∧
    (getMolecules dummyTrig 3 [[fun _ => 0, fun _ => 1 / 8, fun _ => 1 / 4]] [[3]] none (some ⟨false, [1]⟩)).map
      (fun r => (r.1.map fun c => c.map fun v => v 0, r.2)) = .ok ([[1 / 4, 0]], ⟨[0], ⟨false, [1]⟩⟩) := by
  constructor <;> decide +kernel

/-- **C23, what holds.** The molecule convention is the species convention with every index raised by one. -/
theorem C23_shifted_convention_partial (tr : Trig K) (symbols : List String) (specie : List String) (coords : List (List (V3 K)))
    (mols : List (List ℤ)) (masses : Option (List K)) (f : List ℤ) (sel : Selection)
    (hs : getIndices symbols specie (some ⟨false, f⟩) = .ok sel) (new : List (List (V3 K))) (sel' : Selection)
    (hm : getMolecules tr symbols.length coords mols masses (some ⟨false, f.map (· + 1)⟩) = .ok (new, sel'))
    (n : ℕ) (hn : ∀ c ∈ coords, c.length = n) (hne : coords ≠ []) :
    sel.drift.vals = f ∧ ∀ j, (hj : j < coords.length) → (hj' : j < new.length) → ∀ k, (hk : k < f.length) →
      ∃ v, coords[j][atomOf n f[k]]? = some v ∧ new[j][mols.length + k]? = some v := by
  constructor
  · unfold getIndices at hs
    simp only at hs
    split_ifs at hs
    obtain rfl := Except.ok.inj hs
    rfl
  · obtain ⟨drift, hd, -, -, -, hall⟩ := C26_molecule_layout tr symbols.length coords mols masses _ new sel' hm n hn hne
    simp only [List.map_map] at hd
    have hd' : drift = f := by
      rw [hd]; simp [Function.comp_def]
    subst hd'
    intro j hj hj' k hk
    exact ((hall j hj hj').2.2 k hk).2

/-- **C24.** For a molecule whose atoms lie (for some choice `y` of images) within less than half a cell of each other, the
computed centre is the weighted mean of these positions modulo the cell. -/
theorem C24_centre_of_mass (masses : Option (List ℝ)) (x y : List ℝ) (hx : x ≠ []) (hm : GoodMasses x.length masses)
    (hc : Compact y) (hxy : SameImages x y) :
    ∃ c, moleculeCentre realTrig masses x = .ok c ∧ 0 ≤ c ∧ c < 1 ∧ ∃ k : ℤ, c = wmean masses y + k := by
  have hfin : ∀ μ : ℝ, 0 ≤ mod1 μ ∧ mod1 μ < 1 ∧ ∃ k : ℤ, mod1 μ = μ + k := fun μ =>
    ⟨(mod1_range μ).1, (mod1_range μ).2, -⌊μ⌋, by unfold mod1; push_cast; ring⟩
  cases masses with
  | some m => exact ⟨_, moleculeCentre_some x y m hx hm.1 hm.2 hc hxy, hfin _⟩
  | none =>
    rw [moleculeCentre_none x hx, moleculeCentre_some x y _ hx (by simp) (by intro w hw; rw [List.eq_of_mem_replicate hw]; norm_num) hc hxy,
      hxy.length_eq, wmean_none]
    exact ⟨_, rfl, hfin _⟩

example : ∃ c, moleculeCentre realTrig (some [1, 3]) [19 / 20, 1 / 10] = .ok c ∧ 0 ≤ c ∧ c < 1 ∧
    ∃ k : ℤ, c = wmean (some [1, 3]) [-(1 / 20), 1 / 10] + k := by
  refine C24_centre_of_mass _ _ [-(1 / 20), 1 / 10] (by simp) ⟨rfl, by simp⟩ ?_ ?_
  · intro a ha b hb
    simp only [List.mem_cons, List.not_mem_nil, or_false] at ha hb
    rcases ha with rfl | rfl <;> rcases hb with rfl | rfl <;> norm_num
  · exact .cons ⟨1, by norm_num⟩ (.cons ⟨0, by norm_num⟩ .nil)

/-- **C25, images.** Any molecule, compact or not: the stored images do not matter. -/
theorem C25_image_invariance (masses : Option (List ℝ)) (x x' : List ℝ) (h : SameImages x x') :
    moleculeCentre realTrig masses x = moleculeCentre realTrig masses x' := by
  have key : ∀ f : ℝ → ℝ, (∀ a (k : ℤ), f (a + k) = f a) → x.map f = x'.map f := by
    intro f hf
    induction h with
    | nil => rfl
    | cons hab _ ih =>
      obtain ⟨k, rfl⟩ := hab
      rw [List.map_cons, List.map_cons, hf, ih]
  unfold moleculeCentre
  simp only [List.map_map, realTrig]
  rw [key (Real.cos ∘ fun x => x * (2 * Real.pi)) ?_, key (Real.sin ∘ fun x => x * (2 * Real.pi)) ?_]
  · have h3 : ∀ c : ℝ, x.map (fun x => mod1 (x - c)) = x'.map (fun x => mod1 (x - c)) := by
      intro c
      apply key
      intro a k
      rw [show a + (k : ℝ) - c = (a - c) + k by ring, mod1_add_int]
    simp only [h3]
  · intro a k
    simp only [Function.comp]
    rw [show (a + (k : ℝ)) * (2 * Real.pi) = a * (2 * Real.pi) + k * (2 * Real.pi) by ring, Real.sin_add_int_mul_two_pi]
  · intro a k
    simp only [Function.comp]
    rw [show (a + (k : ℝ)) * (2 * Real.pi) = a * (2 * Real.pi) + k * (2 * Real.pi) by ring, Real.cos_add_int_mul_two_pi]

/-- **C25, translation** of a compact molecule moves the centre by the same amount, modulo the cell. -/
theorem C25_translation (masses : Option (List ℝ)) (x y : List ℝ) (hx : x ≠ []) (hm : GoodMasses x.length masses)
    (hc : Compact y) (hxy : SameImages x y) (t : ℝ) :
    ∃ c c', moleculeCentre realTrig masses x = .ok c ∧ moleculeCentre realTrig masses (x.map (· + t)) = .ok c' ∧
      ∃ k : ℤ, c' = c + t + k := by
  obtain ⟨c, h1, -, -, k, hk⟩ := C24_centre_of_mass masses x y hx hm hc hxy
  have hc2 : Compact (y.map (· + t)) := by
    intro a ha b hb
    obtain ⟨a', ha', rfl⟩ := List.mem_map.1 ha
    obtain ⟨b', hb', rfl⟩ := List.mem_map.1 hb
    have := hc a' ha' b' hb'
    linarith
  have hxy2 : SameImages (x.map (· + t)) (y.map (· + t)) := by
    unfold SameImages
    rw [List.forall₂_map_left_iff, List.forall₂_map_right_iff]
    exact hxy.imp fun a b ⟨k, hk⟩ => ⟨k, by rw [hk]; ring⟩
  obtain ⟨c', h2, -, -, k', hk'⟩ := C24_centre_of_mass masses (x.map (· + t)) (y.map (· + t)) (by simpa using hx)
    (by rwa [List.length_map]) hc2 hxy2
  have hy0 : y ≠ [] := by
    intro h
    have := hxy.length_eq
    rw [h] at this
    exact hx (List.length_eq_zero_iff.1 (by simpa using this))
  have hmean : wmean masses (y.map (· + t)) = wmean masses y + t := by
    cases masses with
    | none =>
      have hl : (y.length : ℝ) ≠ 0 := by exact_mod_cast (List.length_pos_of_ne_nil hy0).ne'
      have hs : (y.map (· + t)).sum = y.sum + t * y.length := by
        rw [List.sum_map_add]; simp [mul_comm]
      simp only [wmean, List.length_map, hs]
      field_simp
    | some m =>
      have hlen : m.length = y.length := by rw [hm.1, hxy.length_eq]
      have hpos : 0 < m.sum := by
        apply List.sum_pos _ hm.2
        intro h; rw [h] at hlen; exact hy0 (List.length_eq_zero_iff.1 (by simpa using hlen.symm))
      have hs : (((y.map (· + t)).zip m).map fun p => p.1 * p.2).sum = ((y.zip m).map fun p => p.1 * p.2).sum + t * m.sum := by
        clear hpos hm hxy hc hk hk' hc2 hxy2 h1 h2 hy0 hx
        induction y generalizing m with
        | nil =>
          have : m = [] := List.length_eq_zero_iff.1 (by simpa using hlen)
          simp [this]
        | cons a y ih =>
          cases m with
          | nil => simp at hlen
          | cons w m =>
            simp only [List.map_cons, List.zip_cons_cons, List.sum_cons]
            rw [ih m (by simpa using hlen)]
            ring
      simp only [wmean, hs]
      field_simp
  refine ⟨c, c', h1, h2, k' - k, ?_⟩
  rw [hk', hmean, hk]
  push_cast
  ring

/-! ### The remaining theorems for concrete input -/

/-- `C21_species_no_drift_correction_partial`: no framework requested, nothing subtracted. -/
example (disp : Arr3 ℚ) : ∃ sel, getIndices ["Li", "O", "Li"] ["Li"] (some ⟨false, []⟩) = .ok sel ∧ correctDriftSeq sel.drift disp = .ok disp :=
  ⟨⟨[0, 2], ⟨false, []⟩⟩, rfl, C21_species_no_drift_correction_partial ["Li", "O", "Li"] ["Li"] false _ rfl disp⟩

/-- `C26_molecule_layout` and `C23_shifted_convention_partial`: one molecule (the third atom) and the first atom as framework. -/
example : ∃ new sel, getMolecules dummyTrig 3 [[fun _ => 0, fun _ => 1 / 8, fun _ => 1 / 4]] [[3]] none (some ⟨false, [1]⟩) = .ok (new, sel) ∧
    sel.indices = [0] ∧ sel.drift = ⟨false, [1]⟩ ∧ ∃ v, ([fun _ => 0, fun _ => 1 / 8, fun _ => 1 / 4] : List (V3 ℚ))[atomOf 3 0]? = some v ∧
      ∃ row, new[0]? = some row ∧ row[1]? = some v := by
  have hs : (getMolecules dummyTrig 3 [[fun _ => 0, fun _ => 1 / 8, fun _ => 1 / 4]] [[3]] none (some ⟨false, [1]⟩)).toOption.isSome = true := by
    decide +kernel
  cases h : getMolecules dummyTrig 3 [[fun _ => 0, fun _ => 1 / 8, fun _ => 1 / 4]] [[3]] none (some ⟨false, [1]⟩) with
  | error e => rw [h] at hs; cases hs
  | ok r =>
    obtain ⟨new, sel⟩ := r
    obtain ⟨drift, hd, h1, h2, h3, -⟩ := C26_molecule_layout dummyTrig 3 _ _ none _ new sel h 3 (by simp) (by simp)
    have hd' : drift = [0] := hd
    subst hd'
    have hj : 0 < new.length := by rw [h3]; simp
    obtain ⟨-, hk⟩ := C23_shifted_convention_partial dummyTrig ["O", "Li", "Li"] ["Li"] _ [[3]] none [0] ⟨[1, 2], ⟨false, [0]⟩⟩ rfl new sel h 3 (by simp) (by simp)
    obtain ⟨v, hv, hv'⟩ := hk 0 (by simp) hj 0 (by simp)
    exact ⟨new, sel, rfl, h1, h2, v, hv, new[0], List.getElem?_eq_getElem hj, hv'⟩

/-- `C25_image_invariance`, `C25_translation`: two atoms of masses 1 and 3 either side of a cell face, moved by 2/5. -/
example : moleculeCentre realTrig (some [1, 3]) [19 / 20, 1 / 10] = moleculeCentre realTrig (some [1, 3]) [-(1 / 20), 1 / 10] ∧
    ∃ c c', moleculeCentre realTrig (some [1, 3]) [19 / 20, 1 / 10] = .ok c ∧
      moleculeCentre realTrig (some [1, 3]) ([19 / 20, 1 / 10].map (· + 2 / 5)) = .ok c' ∧ ∃ k : ℤ, c' = c + 2 / 5 + k := by
  have hs : SameImages [19 / 20, 1 / 10] [-(1 / 20), 1 / 10] := .cons ⟨1, by norm_num⟩ (.cons ⟨0, by norm_num⟩ .nil)
  refine ⟨C25_image_invariance _ _ _ hs, C25_translation (some [1, 3]) [19 / 20, 1 / 10] [-(1 / 20), 1 / 10] (by simp) ⟨rfl, by simp⟩ ?_ hs (2 / 5)⟩
  intro a ha b hb
  simp only [List.mem_cons, List.not_mem_nil, or_false] at ha hb
  rcases ha with rfl | rfl <;> rcases hb with rfl | rfl <;> norm_num

end Kinisi
