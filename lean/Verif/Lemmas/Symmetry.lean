import Verif.Spec.EndToEnd
import Mathlib.Tactic.LinearCombination
import Mathlib.Tactic.FieldSimp

/-!
# Lemmas: symmetries of the averages of squared displacements
-/

set_option linter.unusedSectionVars false
set_option linter.unusedVariables false

namespace Kinisi
open Spec
variable {K : Type} [Field K] [LinearOrder K] [IsStrictOrderedRing K]

theorem meanOver_diff (fw : List ℕ) (f g : ℕ → K) : meanOver fw (fun a => f a - g a) = meanOver fw f - meanOver fw g := by
  unfold meanOver
  rw [← sub_div]
  congr 1
  induction fw with
  | nil => simp
  | cons a l ih => simp only [List.map_cons, List.sum_cons, ih]; ring

theorem meanOver_const {fw : List ℕ} (h : fw ≠ []) (c : K) : meanOver fw (fun _ => c) = c := by
  unfold meanOver
  have h0 : (fw.length : K) ≠ 0 := by
    have := List.length_pos_of_ne_nil h
    positivity
  rw [List.map_const', List.sum_replicate, nsmul_eq_mul]
  field_simp

theorem meanOver_smul (fw : List ℕ) (c : K) (f : ℕ → K) : meanOver fw (fun a => c * f a) = c * meanOver fw f := by
  unfold meanOver
  rw [List.sum_map_mul_left, mul_div_assoc]

theorem meanOver_sum (fw : List ℕ) (f : ℕ → Fin 3 → K) : meanOver fw (fun a => ∑ k, f a k) = ∑ k, meanOver fw fun a => f a k := by
  simp only [meanOver, Fin.sum_univ_three, List.sum_map_add, add_div]

/-- A common translation of all atoms in each frame cancels. -/
theorem trueMove_translate {L : M3 K} {u u' : ℕ → ℕ → V3 K} {c : ℕ → V3 K} {fw : List ℕ} (h : fw ≠ [])
    (hu : ∀ i j k, u' i j k = u i j k + c j k) (i s t : ℕ) : trueMove L u' fw i s t = trueMove L u fw i s t := by
  have hc : ∀ i j l, cart L (u' i j) l = cart L (u i j) l + cart L (c j) l := by
    intro i j l
    simp only [cart, hu, add_mul, Finset.sum_add_distrib]
  funext l
  unfold trueMove
  simp only [hc]
  have e : (fun a => cart L (u a t) l + cart L (c t) l - (cart L (u a s) l + cart L (c s) l)) =
      fun a => (cart L (u a t) l - cart L (u a s) l) - (cart L (c s) l - cart L (c t) l) := by funext a; ring
  rw [e, meanOver_diff, meanOver_const h]
  ring

/-- The displacement in the cell `L · R` is the displacement in `L`, mapped by `R`. -/
theorem trueMove_map {L L' R : M3 K} (hL : ∀ k l, L' k l = ∑ a, L k a * R a l) (u : ℕ → ℕ → V3 K) (fw : List ℕ) (i s t : ℕ) (l : Fin 3) :
    trueMove L' u fw i s t l = ∑ a, trueMove L u fw i s t a * R a l := by
  have hc : ∀ x : V3 K, cart L' x l = ∑ a, cart L x a * R a l := by
    intro x
    simp only [cart, hL, Fin.sum_univ_three]
    ring
  unfold trueMove
  simp only [hc]
  have e : (fun b => (∑ a, cart L (u b t) a * R a l) - ∑ a, cart L (u b s) a * R a l) =
      fun b => ∑ a, R a l * (cart L (u b t) a - cart L (u b s) a) := by
    funext b
    simp only [Fin.sum_univ_three]
    ring
  rw [e, meanOver_sum]
  simp only [meanOver_smul, Fin.sum_univ_three]
  ring

theorem lengthSq_map {R : M3 K} (hR : Orthogonal R) {v w : V3 K} (h : ∀ l, w l = ∑ a, v a * R a l) :
    lengthSq Finset.univ w = lengthSq Finset.univ v := by
  unfold lengthSq
  have h00 := hR 0 0
  have h01 := hR 0 1
  have h02 := hR 0 2
  have h11 := hR 1 1
  have h12 := hR 1 2
  have h22 := hR 2 2
  simp only [Fin.sum_univ_three, Fin.isValue, ↓reduceIte] at h00 h01 h02 h11 h12 h22
  simp only [h, Fin.sum_univ_three]
  simp at h01 h02 h12
  linear_combination v 0 ^ 2 * h00 + v 1 ^ 2 * h11 + v 2 ^ 2 * h22 + 2 * v 0 * v 1 * h01 + 2 * v 0 * v 2 * h02 + 2 * v 1 * v 2 * h12

theorem totalMove_map {L L' R : M3 K} (hL : ∀ k l, L' k l = ∑ a, L k a * R a l) (u : ℕ → ℕ → V3 K) (fw atoms : List ℕ) (q : ℕ → K)
    (s t : ℕ) (l : Fin 3) : totalMove L' u fw atoms q s t l = ∑ a, totalMove L u fw atoms q s t a * R a l := by
  unfold totalMove
  simp only [trueMove_map hL, Fin.sum_univ_three, Finset.sum_mul, ← Finset.sum_add_distrib]
  apply Finset.sum_congr rfl
  intro j _
  ring

/-- Averages built from displacements with the same lengths. -/
theorem reportedMsd_congr {A A' : Finset (Fin 3)} {L L' : M3 K} {u u' : ℕ → ℕ → V3 K} {fw fw' atoms atoms' : List ℕ} {F τ : ℕ} {c : K}
    (h : ∀ s t, (atoms'.map fun i => lengthSq A' (trueMove L' u' fw' i s t)).Perm
      (atoms.map fun i => c * lengthSq A (trueMove L u fw i s t))) :
    reportedMsd A' L' u' fw' atoms' F τ = c * reportedMsd A L u fw atoms F τ := by
  have hl : atoms'.length = atoms.length := by simpa using (h 0 0).length_eq
  have hs : ∀ s t, (atoms'.map fun i => lengthSq A' (trueMove L' u' fw' i s t)).sum =
      c * (atoms.map fun i => lengthSq A (trueMove L u fw i s t)).sum := by
    intro s t
    rw [(h s t).sum_eq, List.sum_map_mul_left]
  have hsum : ∀ (l : List ℕ) (f : ℕ → K) (g : ℕ → ℕ → K), (l.map fun i => f i + ∑ s ∈ Finset.range (F - τ), g s i).sum =
      (l.map f).sum + ∑ s ∈ Finset.range (F - τ), (l.map (g s)).sum := by
    intro l f g
    induction l with
    | nil => simp
    | cons a l ih =>
      simp only [List.map_cons, List.sum_cons, ih, Finset.sum_add_distrib]
      ring
  unfold reportedMsd
  rw [hl, hsum _ _ fun s i => lengthSq A' (trueMove L' u' fw' i s (s + τ)), hsum _ _ fun s i => lengthSq A (trueMove L u fw i s (s + τ)),
    ← mul_div_assoc, hs, mul_add, Finset.mul_sum]
  simp only [hs]

theorem reportedTotal_congr {A A' : Finset (Fin 3)} {L L' : M3 K} {u u' : ℕ → ℕ → V3 K} {fw fw' atoms atoms' : List ℕ}
    {q q' : ℕ → K} {F τ : ℕ} {c : K}
    (h : ∀ s t, lengthSq A' (totalMove L' u' fw' atoms' q' s t) = c * lengthSq A (totalMove L u fw atoms q s t)) :
    reportedTotal A' L' u' fw' atoms' q' F τ = c * reportedTotal A L u fw atoms q F τ := by
  unfold reportedTotal
  simp only [h]
  rw [← Finset.mul_sum, ← mul_add, mul_div_assoc]

theorem lengthSq_smul (A : Finset (Fin 3)) {c : K} {v w : V3 K} (h : ∀ l, w l = c * v l) : lengthSq A w = c ^ 2 * lengthSq A v := by
  unfold lengthSq
  rw [Finset.mul_sum]
  exact Finset.sum_congr rfl fun l _ => by rw [h, mul_pow]

/-! ## Renumbering -/

theorem meanOver_perm {fw fw' : List ℕ} {σ : ℕ → ℕ} (h : (fw'.map σ).Perm fw) (f : ℕ → K) :
    meanOver fw' (fun a => f (σ a)) = meanOver fw f := by
  have hl : fw'.length = fw.length := by simpa using h.length_eq
  have e : fw'.map (fun a => f (σ a)) = (fw'.map σ).map f := by rw [List.map_map]; rfl
  unfold meanOver
  rw [hl, e, (h.map f).sum_eq]

theorem trueMove_perm {L : M3 K} {u u' : ℕ → ℕ → V3 K} {fw fw' : List ℕ} {σ : ℕ → ℕ} (h : (fw'.map σ).Perm fw)
    (hu : ∀ i j, u' i j = u (σ i) j) (i s t : ℕ) : trueMove L u' fw' i s t = trueMove L u fw (σ i) s t := by
  funext l
  unfold trueMove
  simp only [hu]
  rw [meanOver_perm h fun a => cart L (u a t) l - cart L (u a s) l]

theorem sum_fin_list (l : List ℕ) (f : ℕ → K) : ∑ j : Fin l.length, f l[j] = (l.map f).sum := by
  rw [← List.sum_ofFn]
  congr 1
  apply List.ext_getElem (by simp)
  intro i h1 h2
  simp

theorem totalMove_perm {L : M3 K} {u u' : ℕ → ℕ → V3 K} {fw fw' atoms atoms' : List ℕ} {σ : ℕ → ℕ} (hf : (fw'.map σ).Perm fw)
    (ha : (atoms'.map σ).Perm atoms) (hu : ∀ i j, u' i j = u (σ i) j) (q : K) (s t : ℕ) :
    totalMove L u' fw' atoms' (fun _ => q) s t = totalMove L u fw atoms (fun _ => q) s t := by
  funext l
  unfold totalMove
  simp only [trueMove_perm hf hu]
  rw [sum_fin_list atoms' fun i => q * trueMove L u fw (σ i) s t l, sum_fin_list atoms fun i => q * trueMove L u fw i s t l]
  rw [← (ha.map fun i => q * trueMove L u fw i s t l).sum_eq, List.map_map]
  rfl

/-- Renumbering the atoms renumbers the selected ones. -/
theorem chosen_perm {sy sy' : List String} {σ : ℕ → ℕ} (hl : sy'.length = sy.length) (hσ : ∀ i < sy.length, σ i < sy.length)
    (hinj : ∀ i < sy.length, ∀ j < sy.length, σ i = σ j → i = j) (hs : ∀ i < sy.length, sy'.getD i "" = sy.getD (σ i) "")
    (p : String → Bool) :
    (((List.range sy'.length).filter fun k => p (sy'.getD k "")).map σ).Perm ((List.range sy.length).filter fun k => p (sy.getD k "")) := by
  rw [hl]
  have hsurj : ∀ k < sy.length, ∃ i < sy.length, σ i = k := by
    intro k hk
    have hc := Finset.surj_on_of_inj_on_of_card_le (s := Finset.range sy.length) (t := Finset.range sy.length) (fun i _ => σ i)
      (fun i hi => by simpa using hσ i (by simpa using hi))
      (fun i j hi hj h => hinj i (by simpa using hi) j (by simpa using hj) h) le_rfl k (by simpa using hk)
    obtain ⟨i, hi, h⟩ := hc
    exact ⟨i, by simpa using hi, h.symm⟩
  rw [List.perm_ext_iff_of_nodup]
  · intro k
    simp only [List.mem_map, List.mem_filter, List.mem_range]
    constructor
    · rintro ⟨i, ⟨hi, hp⟩, rfl⟩
      exact ⟨hσ i hi, by rw [← hs i hi]; exact hp⟩
    · rintro ⟨hk, hp⟩
      obtain ⟨i, hi, rfl⟩ := hsurj k hk
      exact ⟨i, ⟨hi, by rw [hs i hi]; exact hp⟩, rfl⟩
  · apply List.Nodup.map_on
    · intro i hi j hj h
      simp only [List.mem_filter, List.mem_range] at hi hj
      exact hinj i hi.1 j hj.1 h
    · exact List.nodup_range.filter _
  · exact List.nodup_range.filter _

end Kinisi
