import Verif.Lemmas.Disp
import Verif.Model.Parser

set_option linter.unusedSectionVars false

namespace Kinisi
open Spec
variable {K : Type} [Field K] [LinearOrder K] [IsStrictOrderedRing K] [FloorRing K]

theorem mem_positions {α : Type} (p : α → Bool) (l : List α) (i : ℤ) :
    i ∈ positions p l ↔ ∃ k, ∃ h : k < l.length, i = (k : ℤ) ∧ p l[k] = true := by
  unfold positions
  simp only [List.mem_map, List.mem_filter]
  constructor
  · rintro ⟨⟨x, k⟩, ⟨hm, hp⟩, rfl⟩
    rw [List.mk_mem_zipIdx_iff_getElem?] at hm
    obtain ⟨h, hx⟩ := List.getElem?_eq_some_iff.1 hm
    exact ⟨k, h, rfl, by rw [hx]; exact hp⟩
  · rintro ⟨k, h, rfl, hp⟩
    exact ⟨(l[k], k), ⟨by rw [List.mk_mem_zipIdx_iff_getElem?, List.getElem?_eq_getElem h], hp⟩, rfl⟩

theorem positions_pairwise {α : Type} (p : α → Bool) (l : List α) : (positions p l).Pairwise (· < ·) := by
  unfold positions
  rw [List.pairwise_map]
  apply List.Pairwise.filter
  have h : (l.zipIdx.map Prod.snd).Pairwise (· < ·) := by
    rw [List.zipIdx_map_snd]
    exact List.pairwise_lt_range'
  rw [List.pairwise_map] at h
  exact h.imp fun hab => by exact_mod_cast hab

theorem positions_nodup {α : Type} (p : α → Bool) (l : List α) : (positions p l).Nodup :=
  (positions_pairwise p l).imp fun h => h.ne

theorem range_filter_mem (n : ℕ) (q : ℤ → Bool) (i : ℤ) :
    i ∈ ((List.range n).map fun i : ℕ => (i : ℤ)).filter q ↔ 0 ≤ i ∧ i < n ∧ q i = true := by
  rw [List.mem_filter, List.mem_map]
  constructor
  · rintro ⟨⟨k, hk, rfl⟩, hq⟩
    rw [List.mem_range] at hk
    exact ⟨by omega, by exact_mod_cast hk, hq⟩
  · rintro ⟨h0, h1, hq⟩
    exact ⟨⟨i.toNat, List.mem_range.2 (by omega), by omega⟩, hq⟩

/-- What a successful `_get_molecules` went through. -/
theorem getMolecules_inv {tr : Trig K} {natoms : ℕ} {coords : List (List (V3 K))} {mols : List (List ℤ)}
    {masses : Option (List K)} {framework : Option PySeq} {r : List (List (V3 K)) × Selection}
    (h : getMolecules tr natoms coords mols masses framework = .ok r) :
    (∀ m ∈ mols, m.length = (mols.headD []).length) ∧ massesFit masses (mols.headD []).length = true ∧
    (∀ c ∈ coords, c.length = (coords.headD []).length) ∧ (mols.headD []).length ≠ 0 ∧ floatIndex framework = false ∧
    ∃ atoms com dr,
      ((mols.map fun m => m.map (· - 1)).mapM fun m => m.mapM (npIdx (coords.headD []).length)) = .ok atoms ∧
      (coords.mapM fun c => atoms.mapM fun m => moleculeCentre3 tr masses c m) = .ok com ∧
      (moleculeDrift natoms (mols.map fun m => m.map (· - 1)) framework).mapM (npIdx (coords.headD []).length) = .ok dr ∧
      r = (List.zipWith (fun c cs => cs ++ dr.map fun a => c.getD a 0) coords com,
        ⟨(List.range mols.length).map fun i : ℕ => (i : ℤ),
          ⟨false, (List.range dr.length).map fun i : ℕ => ((mols.length + i : ℕ) : ℤ)⟩⟩) := by
  unfold getMolecules at h
  simp only at h
  by_cases h1 : (mols.all fun m => decide (m.length = (mols.headD []).length)) = false
  · rw [if_pos h1] at h; cases h
  rw [if_neg h1] at h
  by_cases h2 : massesFit masses (mols.headD []).length = false
  · rw [if_pos h2] at h; cases h
  rw [if_neg h2] at h
  by_cases h3 : (coords.all fun c => decide (c.length = (coords.headD []).length)) = false
  · rw [if_pos h3] at h; cases h
  rw [if_neg h3] at h
  by_cases h4 : (mols.headD []).length = 0
  · rw [if_pos h4] at h; cases h
  rw [if_neg h4] at h
  simp only [bind, Except.bind] at h
  cases ha : ((mols.map fun m => m.map (· - 1)).mapM fun m => m.mapM (npIdx (coords.headD []).length)) with
  | error e => rw [ha] at h; cases h
  | ok atoms =>
  rw [ha] at h
  simp only at h
  cases hc : (coords.mapM fun c => atoms.mapM fun m => moleculeCentre3 tr masses c m) with
  | error e => rw [hc] at h; cases h
  | ok com =>
  rw [hc] at h
  simp only at h
  by_cases h5 : floatIndex framework = true
  · rw [if_pos h5] at h; cases h
  rw [if_neg h5] at h
  cases hd : (moleculeDrift natoms (mols.map fun m => m.map (· - 1)) framework).mapM (npIdx (coords.headD []).length) with
  | error e => rw [hd] at h; cases h
  | ok dr =>
  rw [hd] at h
  simp only [Except.ok.injEq] at h
  refine ⟨by simpa using h1, by simpa using h2, by simpa using h3, h4, by simpa using h5, atoms, com, dr, rfl, hc, rfl, h.symm⟩

end Kinisi
