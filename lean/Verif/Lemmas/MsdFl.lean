import Verif.Model.MsdFl
import Verif.Lemmas.DispFl
import Verif.Lemmas.GetDisps
import Verif.Lemmas.EndToEnd
import Verif.Lemmas.Observables

/-!
# Rounding errors of sums, means and squared displacements
-/

set_option linter.unusedSectionVars false
set_option linter.unusedVariables false

namespace Kinisi
open Spec
variable {K : Type} [Field K] [LinearOrder K] [IsStrictOrderedRing K] [FloorRing K]

/-- Every entry is added exactly once. -/
def ValidOrder (ord : ℕ → SumOrder) : Prop := ∀ n, 0 < n → (ord n).leaves.Perm (List.range n)

theorem sumOrder_id (x : ℕ → K) (t : SumOrder) : t.eval id x = (t.leaves.map x).sum := by
  induction t with
  | leaf i => simp [SumOrder.eval, SumOrder.leaves]
  | add a b iha ihb => simp [SumOrder.eval, SumOrder.leaves, iha, ihb]

theorem getD_range (l : List K) : (List.range l.length).map (fun i => l.getD i 0) = l := by
  apply List.ext_getElem
  · simp
  · intro i h1 h2
    simp only [List.getElem_map, List.getElem_range]
    rw [List.getD_eq_getElem?_getD, List.getElem?_eq_getElem h2]
    rfl

theorem leaves_sum {ord : ℕ → SumOrder} (ho : ValidOrder ord) {l : List K} (hl : l ≠ []) (f : K → K) :
    ((ord l.length).leaves.map fun i => f (l.getD i 0)).sum = (l.map f).sum := by
  rw [((ho l.length (List.length_pos_iff.2 hl)).map _).sum_eq]
  conv_rhs => rw [← getD_range l, List.map_map]
  rfl

theorem sumFl_id {ord : ℕ → SumOrder} (ho : ValidOrder ord) {l : List K} (hl : l ≠ []) : sumFl id ord l = l.sum := by
  unfold sumFl
  rw [sumOrder_id]
  simpa using leaves_sum ho hl id

theorem meanFl_id {ord : ℕ → SumOrder} (ho : ValidOrder ord) (l : List K) : meanFl id ord l = npMean l := by
  unfold meanFl npMean
  split_ifs with h
  · rfl
  · rw [sumFl_id ho (by rintro rfl; exact h rfl)]; rfl

theorem except_mapM_length {α β : Type} {f : α → PyM β} : ∀ {l : List α} {r : List β}, l.mapM f = .ok r → r.length = l.length
  | [], r, h => by rw [List.mapM_nil] at h; obtain rfl := Except.ok.inj h; rfl
  | a :: l, r, h => by
    rw [List.mapM_cons] at h
    cases ha : f a with
    | error e => rw [ha] at h; cases h
    | ok b =>
      cases hl : l.mapM f with
      | error e => rw [ha, hl] at h; cases h
      | ok bs =>
        rw [ha, hl] at h
        obtain rfl := Except.ok.inj h
        simp [except_mapM_length hl]

theorem abs_list_sum (l : List K) : |l.sum| ≤ (l.map fun x => |x|).sum := by
  induction l with
  | nil => simp
  | cons a l ih => simpa using le_trans (abs_add_le _ _) (by linarith)

theorem correctDriftFl_id {ord : ℕ → SumOrder} (ho : ValidOrder ord) (drift : List ℤ) (disp : Arr3 K) :
    correctDriftFl id ord drift disp = correctDrift drift disp := by
  unfold correctDriftFl correctDrift
  split_ifs with h
  · cases hr : drift.mapM (npIdx disp.n0) with
    | error e => rfl
    | ok rows =>
      simp only [bind, Except.bind]
      congr 2
      funext i j l
      have hl : rows.length = drift.length := except_mapM_length hr
      rw [sumFl_id ho (by intro h0; have := congrArg List.length h0; simp at this; subst this; simp at hl; omega)]
      rfl
  · rfl

theorem multiOriginFl_id (dc : Arr3 K) (rows : List ℕ) (τ : ℤ) : multiOriginFl id dc rows τ = multiOrigin dc rows τ := rfl

theorem dSquaredFl_id {ord : ℕ → SumOrder} (ho : ValidOrder ord) {axes : List (Fin 3)} (ha : axes ≠ []) (a : Arr3 K) :
    dSquaredFl id ord axes a = dSquared axes a := by
  unfold dSquaredFl dSquared
  congr 1
  funext i
  congr 1
  funext k
  rw [sumFl_id ho (by simpa using ha)]
  rfl

theorem collMotionFl_id {ord : ℕ → SumOrder} (ho : ValidOrder ord) {axes : List (Fin 3)} (ha : axes ≠ []) (a : Arr3 K) (h0 : 0 < a.n0) :
    collMotionFl id ord axes a = collMotion axes a := by
  unfold collMotionFl collMotion
  congr 1
  funext k
  rw [sumFl_id ho (by simpa using ha)]
  congr 2
  funext x
  rw [sumFl_id ho (by simp; omega)]
  rfl

theorem chgMotionFl_id {ord : ℕ → SumOrder} (ho : ValidOrder ord) (q : List K) (a : Arr3 K) (h0 : 0 < a.n0) (hq : q ≠ []) :
    chgMotionFl id ord q a = chgMotion q a := by
  have hc : ∀ k x, chargeSumFl id ord q a k x = chargeSum q a k x := by
    intro k x
    have hr : ∀ f : ℕ → K, (List.range a.n0).map f ≠ [] := fun f => by simp; omega
    unfold chargeSumFl chargeSum
    rw [sumFl_id ho (hr _), sumFl_id ho (hr _), sumFl_id ho (by simpa using hq)]
    rfl
  unfold chgMotionFl chgMotion
  simp only [hc]
  split_ifs
  · congr 1
    funext k
    cases hv : (List.finRange 3).mapM fun x => chargeSum q a k x with
    | error e => rfl
    | ok v =>
      have hl : v.length = 3 := by rw [except_mapM_length hv]; rfl
      simp only [bind, Except.bind]
      rw [sumFl_id ho (by intro h; have := congrArg List.length h; simp [hl] at this)]
      rfl
  · rfl

/-- Error of a rounded sum: `d` additions on top of each other. -/
theorem sumOrder_error {fl : K → K} {ε : K} (h : RelErr fl ε) (hε : 0 ≤ ε) (x : ℕ → K) (t : SumOrder) :
    |t.eval fl x - (t.leaves.map x).sum| ≤ ((1 + ε) ^ t.depth - 1) * (t.leaves.map fun i => |x i|).sum := by
  have h1 : (1 : K) ≤ 1 + ε := by linarith
  induction t with
  | leaf i => simp [SumOrder.eval, SumOrder.leaves, SumOrder.depth]
  | add a b iha ihb =>
    simp only [SumOrder.eval, SumOrder.leaves, SumOrder.depth, List.map_append, List.sum_append]
    set d := max a.depth b.depth with hd
    have pa : (1 + ε) ^ a.depth ≤ (1 + ε) ^ d := pow_le_pow_right₀ h1 (le_max_left _ _)
    have pb : (1 + ε) ^ b.depth ≤ (1 + ε) ^ d := pow_le_pow_right₀ h1 (le_max_right _ _)
    have na : 0 ≤ (a.leaves.map fun i => |x i|).sum := List.sum_nonneg (by simp)
    have nb : 0 ≤ (b.leaves.map fun i => |x i|).sum := List.sum_nonneg (by simp)
    have ba : |(a.leaves.map x).sum| ≤ (a.leaves.map fun i => |x i|).sum := by
      have := abs_list_sum (a.leaves.map x); rwa [List.map_map] at this
    have bb : |(b.leaves.map x).sum| ≤ (b.leaves.map fun i => |x i|).sum := by
      have := abs_list_sum (b.leaves.map x); rwa [List.map_map] at this
    generalize (a.leaves.map fun i => |x i|).sum = A at *
    generalize (b.leaves.map fun i => |x i|).sum = B at *
    generalize (a.leaves.map x).sum = sa at *
    generalize (b.leaves.map x).sum = sb at *
    generalize a.eval fl x = ea at *
    generalize b.eval fl x = eb at *
    have ea' : |ea - sa| ≤ ((1 + ε) ^ d - 1) * A := le_trans iha (mul_le_mul_of_nonneg_right (by linarith) na)
    have eb' : |eb - sb| ≤ ((1 + ε) ^ d - 1) * B := le_trans ihb (mul_le_mul_of_nonneg_right (by linarith) nb)
    have hsum : |(ea + eb) - (sa + sb)| ≤ ((1 + ε) ^ d - 1) * (A + B) := by
      have := abs_add_le (ea - sa) (eb - sb)
      rw [show ea - sa + (eb - sb) = (ea + eb) - (sa + sb) by ring] at this
      linarith
    have hab : |sa + sb| ≤ A + B := le_trans (abs_add_le _ _) (add_le_add ba bb)
    have hn := abs_le_of_near hsum hab
    have hr := h.bound hε hn
    refine le_trans (abs_trans hr hsum) (le_of_eq ?_)
    rw [pow_succ]
    ring

theorem sumFl_error {fl : K → K} {ε : K} (h : RelErr fl ε) (hε : 0 ≤ ε) {ord : ℕ → SumOrder} (ho : ValidOrder ord) {l : List K} (hl : l ≠ []) :
    |sumFl fl ord l - l.sum| ≤ ((1 + ε) ^ (ord l.length).depth - 1) * (l.map fun x => |x|).sum := by
  have := sumOrder_error h hε (fun i => l.getD i 0) (ord l.length)
  rw [leaves_sum ho hl (fun x => |x|)] at this
  have e := leaves_sum ho hl id
  rw [List.map_id] at e
  simp only [id] at e
  rw [e] at this
  exact this

/-- Error of a rounded mean. -/
theorem meanFl_error {fl : K → K} {ε : K} (h : RelErr fl ε) (hε : 0 ≤ ε) {ord : ℕ → SumOrder} (ho : ValidOrder ord) {l : List K} (hl : l ≠ []) :
    |fl (sumFl fl ord l / l.length) - l.sum / l.length| ≤ ((1 + ε) ^ ((ord l.length).depth + 1) - 1) * ((l.map fun x => |x|).sum / l.length) := by
  have hn : (0 : K) < l.length := by exact_mod_cast List.length_pos_iff.2 hl
  have h1 := sumFl_error h hε ho hl
  have h2 := abs_list_sum l
  generalize (l.map fun x => |x|).sum = S at *
  rw [pow_succ]
  generalize (1 + ε) ^ (ord l.length).depth = p at *
  have e1 : |sumFl fl ord l / l.length - l.sum / l.length| ≤ (p - 1) * (S / l.length) := by
    rw [← sub_div, abs_div, abs_of_pos hn, ← mul_div_assoc]
    exact div_le_div_of_nonneg_right h1 hn.le
  have e2 : |l.sum / l.length| ≤ S / l.length := by
    rw [abs_div, abs_of_pos hn]
    exact div_le_div_of_nonneg_right h2 hn.le
  have e3 := h.bound hε (abs_le_of_near e1 e2)
  refine le_trans (abs_trans e3 e1) (le_of_eq ?_)
  ring

theorem sum_le_length {l : List K} {T : K} (h : ∀ x ∈ l, x ≤ T) : l.sum ≤ l.length * T := by
  induction l with
  | nil => simp
  | cons a l ih =>
    have h1 := h a (by simp)
    have h2 := ih fun x hx => h x (by simp [hx])
    simp only [List.sum_cons, List.length_cons]
    push_cast
    linarith

theorem mean_le {l : List K} (hl : l ≠ []) {T : K} (h : ∀ x ∈ l, x ≤ T) : l.sum / l.length ≤ T := by
  have hn : (0 : K) < l.length := by exact_mod_cast List.length_pos_iff.2 hl
  rw [div_le_iff₀ hn, mul_comm]
  exact sum_le_length h

/-- Rounded mean of computed values against the mean of the values wanted. -/
theorem mean_near {ι : Type} {l : List ι} (hl : l ≠ []) {f g : ι → K} {e : K} (h : ∀ i ∈ l, |f i - g i| ≤ e) :
    |(l.map f).sum / l.length - (l.map g).sum / l.length| ≤ e := by
  have hn : (0 : K) < l.length := by exact_mod_cast List.length_pos_iff.2 hl
  have h1 : (l.map f).sum - (l.map g).sum = (l.map fun i => f i - g i).sum := by
    clear h hl hn
    induction l with
    | nil => simp
    | cons a l ih => simp only [List.map_cons, List.sum_cons]; rw [← ih]; ring
  rw [← sub_div, h1, abs_div, abs_of_pos hn, div_le_iff₀ hn, mul_comm]
  refine le_trans (abs_list_sum _) (le_trans (sum_le_length (T := e) ?_) (by simp))
  intro x hx
  simp only [List.map_map, List.mem_map, Function.comp] at hx
  obtain ⟨i, hi, rfl⟩ := hx
  exact h i hi

theorem sumFl_squares {fl : K → K} {ε : K} (h : RelErr fl ε) (hε : 0 ≤ ε) {ord : ℕ → SumOrder} (ho : ValidOrder ord) {axes : List (Fin 3)}
    (ha : axes ≠ []) (v : V3 K) :
    |sumFl fl ord (axes.map fun x => fl (v x ^ 2)) - (axes.map fun x => v x ^ 2).sum| ≤
      ((1 + ε) ^ ((ord axes.length).depth + 1) - 1) * (axes.map fun x => v x ^ 2).sum := by
  have h1 := sumFl_error h hε ho (l := axes.map fun x => fl (v x ^ 2)) (by simpa using ha)
  rw [List.length_map] at h1
  have hp : (1 : K) ≤ (1 + ε) ^ (ord axes.length).depth := one_le_pow₀ (by linarith)
  rw [pow_succ]
  generalize (1 + ε) ^ (ord axes.length).depth = p at *
  have hsq : ∀ x, |fl (v x ^ 2) - v x ^ 2| ≤ ε * v x ^ 2 := fun x => by
    have := h (v x ^ 2); rwa [abs_of_nonneg (sq_nonneg (v x))] at this
  have h2 : ((axes.map fun x => fl (v x ^ 2)).map fun x => |x|).sum ≤ (1 + ε) * (axes.map fun x => v x ^ 2).sum := by
    rw [List.map_map, ← List.sum_map_mul_left]
    refine List.sum_le_sum fun x _ => ?_
    have := abs_le_of_near (hsq x) (le_of_eq (abs_of_nonneg (sq_nonneg (v x))))
    simp only [Function.comp]
    linarith
  have h3 : |(axes.map fun x => fl (v x ^ 2)).sum - (axes.map fun x => v x ^ 2).sum| ≤ ε * (axes.map fun x => v x ^ 2).sum := by
    have e : (axes.map fun x => fl (v x ^ 2)).sum - (axes.map fun x => v x ^ 2).sum = (axes.map fun x => fl (v x ^ 2) - v x ^ 2).sum := by
      clear h1 h2 ha
      induction axes with
      | nil => simp
      | cons a l ih => simp only [List.map_cons, List.sum_cons]; rw [← ih]; ring
    rw [e, ← List.sum_map_mul_left]
    refine le_trans (abs_list_sum _) ?_
    rw [List.map_map]
    exact List.sum_le_sum fun x _ => hsq x
  generalize (axes.map fun x => v x ^ 2).sum = S at *
  have h4 := le_trans h1 (mul_le_mul_of_nonneg_left h2 (by linarith))
  refine le_trans (abs_trans h4 h3) (le_of_eq ?_)
  ring

theorem dSquared_product (axes : List (Fin 3)) (a : Arr3 K) :
    dSquared axes a = (List.range a.n0 ×ˢ List.range a.n1).map fun p => (axes.map fun x => a.get p.1 p.2 x ^ 2).sum := by
  unfold dSquared
  rw [SProd.sprod, List.instSProd]
  simp only [List.product, List.map_flatMap, List.map_map]
  rfl

theorem dSquaredFl_product (fl : K → K) (ord : ℕ → SumOrder) (axes : List (Fin 3)) (a : Arr3 K) :
    dSquaredFl fl ord axes a = (List.range a.n0 ×ˢ List.range a.n1).map fun p => sumFl fl ord (axes.map fun x => fl (a.get p.1 p.2 x ^ 2)) := by
  unfold dSquaredFl
  rw [SProd.sprod, List.instSProd]
  simp only [List.product, List.map_flatMap, List.map_map]
  rfl

/-- The rounded mean of the rounded squares, against the exact mean of the same displacements. -/
theorem meanSquare_error {fl : K → K} {ε : K} (h : RelErr fl ε) (hε : 0 ≤ ε) {ord : ℕ → SumOrder} (ho : ValidOrder ord) {axes : List (Fin 3)}
    (ha : axes ≠ []) (a : Arr3 K) (hn : 0 < a.n0 * a.n1) :
    ∃ r m, meanFl fl ord (dSquaredFl fl ord axes a) = some r ∧ npMean (dSquared axes a) = some m ∧ 0 ≤ m ∧
      |r - m| ≤ ((1 + ε) ^ ((ord axes.length).depth + (ord (a.n0 * a.n1)).depth + 2) - 1) * m := by
  set P := List.range a.n0 ×ˢ List.range a.n1 with hP
  have hPl : P.length = a.n0 * a.n1 := by simp [hP, List.length_product]
  have hPne : P ≠ [] := by intro h0; rw [h0, List.length_nil] at hPl; omega
  rw [dSquared_product, dSquaredFl_product, ← hP]
  set s : ℕ × ℕ → K := fun p => (axes.map fun x => a.get p.1 p.2 x ^ 2).sum with hs
  set r : ℕ × ℕ → K := fun p => sumFl fl ord (axes.map fun x => fl (a.get p.1 p.2 x ^ 2)) with hr
  have hrs : ∀ p, |r p - s p| ≤ ((1 + ε) ^ ((ord axes.length).depth + 1) - 1) * s p := fun p => sumFl_squares h hε ho ha (a.get p.1 p.2)
  have hs0 : ∀ p, 0 ≤ s p := fun p => List.sum_nonneg (by
    intro y hy
    obtain ⟨x, -, rfl⟩ := List.mem_map.mp hy
    exact sq_nonneg _)
  have h1 := meanFl_error h hε ho (l := P.map r) (by simpa using hPne)
  have hN : (0 : K) < P.length := by exact_mod_cast List.length_pos_iff.2 hPne
  refine ⟨fl (sumFl fl ord (P.map r) / (P.map r).length), (P.map s).sum / (P.map s).length, ?_, ?_, ?_, ?_⟩
  · unfold meanFl; rw [if_neg (by simpa using hPne)]
  · unfold npMean; rw [if_neg (by simpa using hPne)]
  · refine div_nonneg (List.sum_nonneg ?_) (Nat.cast_nonneg _)
    intro y hy
    obtain ⟨p, -, rfl⟩ := List.mem_map.mp hy
    exact hs0 p
  · rw [List.length_map] at h1 ⊢
    rw [List.length_map]
    rw [hPl] at h1 hN ⊢
    generalize hp : (1 + ε) ^ ((ord axes.length).depth + 1) = p at *
    have hq : (1 + ε) ^ ((ord axes.length).depth + (ord (a.n0 * a.n1)).depth + 2) = p * (1 + ε) ^ ((ord (a.n0 * a.n1)).depth + 1) := by
      rw [← hp, ← pow_add]; congr 1; omega
    rw [hq]
    have hq1 : (1 : K) ≤ (1 + ε) ^ ((ord (a.n0 * a.n1)).depth + 1) := one_le_pow₀ (by linarith)
    generalize (1 + ε) ^ ((ord (a.n0 * a.n1)).depth + 1) = q at *
    have h2 : ((P.map r).map fun x => |x|).sum ≤ p * (P.map s).sum := by
      rw [List.map_map, ← List.sum_map_mul_left]
      refine List.sum_le_sum fun x _ => ?_
      have := abs_le_of_near (hrs x) (le_of_eq (abs_of_nonneg (hs0 x)))
      simp only [Function.comp]
      linarith
    have h3 : |(P.map r).sum - (P.map s).sum| ≤ (p - 1) * (P.map s).sum := by
      have e : (P.map r).sum - (P.map s).sum = (P.map fun x => r x - s x).sum := by
        generalize P = Q
        induction Q with
        | nil => simp
        | cons a l ih => simp only [List.map_cons, List.sum_cons]; rw [← ih]; ring
      rw [e, ← List.sum_map_mul_left]
      refine le_trans (abs_list_sum _) ?_
      rw [List.map_map]
      exact List.sum_le_sum fun x _ => hrs x
    generalize (P.map s).sum = S at *
    have h4 : |(P.map r).sum / ((a.n0 * a.n1 : ℕ) : K) - S / ((a.n0 * a.n1 : ℕ) : K)| ≤ (p - 1) * (S / ((a.n0 * a.n1 : ℕ) : K)) := by
      rw [← sub_div, abs_div, abs_of_pos hN, ← mul_div_assoc]
      exact div_le_div_of_nonneg_right h3 hN.le
    have h5 := le_trans h1 (mul_le_mul_of_nonneg_left (div_le_div_of_nonneg_right h2 hN.le) (by linarith))
    refine le_trans (abs_trans h5 h4) (le_of_eq ?_)
    ring

theorem mapM_natIdx {n : ℕ} {l : List ℕ} (h : ∀ a ∈ l, a < n) : (l.map fun a : ℕ => (a : ℤ)).mapM (npIdx n) = .ok l := by
  induction l with
  | nil => rfl
  | cons a l ih =>
    have ha := h a (by simp)
    rw [List.map_cons, List.mapM_cons, ih fun b hb => h b (by simp [hb]), npIdx, if_pos ⟨by omega, by omega⟩]
    simp only [Int.toNat_natCast]
    rfl

theorem meanOver_bound {l : List ℕ} {f : ℕ → K} {M : K} (hM : 0 ≤ M) (h : ∀ a ∈ l, |f a| ≤ M) : |meanOver l f| ≤ M := by
  unfold meanOver
  rcases eq_or_ne l [] with rfl | hl
  · simpa using hM
  have := mean_near hl (f := f) (g := fun _ => 0) (e := M) (fun a ha => by simpa using h a ha)
  simpa using this

/-- Error of the drift correction. -/
theorem correctDriftFl_error {fl : K → K} {ε γ η M : K} (h : RelErr fl ε) (hε : 0 ≤ ε) {ord : ℕ → SumOrder} (ho : ValidOrder ord) {n F : ℕ}
    {fw : List ℕ} (hfw : ∀ a ∈ fw, a < n) (hγ0 : 0 ≤ γ) (hγ : fw ≠ [] → (1 + ε) ^ ((ord fw.length).depth + 1) - 1 ≤ γ)
    {x : ℕ → ℕ → V3 K} {disp : Arr3 K} (h0 : disp.n0 = n) (h1 : disp.n1 = F) (hη : 0 ≤ η) (hM0 : 0 ≤ M)
    (hM : ∀ i < n, ∀ j < F, ∀ l, |x i j l| ≤ M) (he : ∀ i < n, ∀ j < F, ∀ l, |disp.get i j l - x i j l| ≤ η) :
    ∃ dc, correctDriftFl fl ord (fw.map fun a : ℕ => (a : ℤ)) disp = .ok dc ∧ dc.n0 = n ∧ dc.n1 = F ∧
      ∀ i < n, ∀ j < F, ∀ l, |dc.get i j l - relTo fw x i j l| ≤ driftError ε γ η M := by
  have hMη : 0 ≤ M + η := by linarith
  rcases eq_or_ne fw [] with rfl | hne
  · refine ⟨disp, by simp [correctDriftFl], h0, h1, fun i hi j hj l => ?_⟩
    have := he i hi j hj l
    unfold relTo meanOver driftError
    simp only [List.map_nil, List.sum_nil, List.length_nil, Nat.cast_zero, div_zero, sub_zero]
    have : 0 ≤ ε * ((2 + γ) * (M + η)) := by positivity
    have : 0 ≤ γ * (M + η) := by positivity
    linarith
  · have hlen : 0 < fw.length := List.length_pos_iff.2 hne
    refine ⟨{ disp with get := fun i j l => fl (disp.get i j l - fl (sumFl fl ord (fw.map fun r => disp.get r j l) / fw.length)) }, ?_, h0, h1, ?_⟩
    · unfold correctDriftFl
      rw [if_pos (by simpa using hlen), h0, mapM_natIdx hfw]
      rfl
    · intro i hi j hj l
      simp only
      have e1 := meanFl_error h hε ho (l := fw.map fun r => disp.get r j l) (by simpa using hne)
      rw [List.length_map] at e1
      have hb : ∀ r ∈ fw, |disp.get r j l| ≤ M + η := fun r hr => abs_le_of_near (he r (hfw r hr) j hj l) (hM r (hfw r hr) j hj l)
      have e2 : ((fw.map fun r => disp.get r j l).map fun x => |x|).sum / fw.length ≤ M + η := by
        have := mean_le (l := (fw.map fun r => disp.get r j l).map fun x => |x|) (by simpa using hne) (T := M + η) (by
          intro y hy
          simp only [List.map_map, List.mem_map, Function.comp] at hy
          obtain ⟨r, hr, rfl⟩ := hy
          exact hb r hr)
        simpa using this
      have hp : (0 : K) ≤ (1 + ε) ^ ((ord fw.length).depth + 1) - 1 := by
        have : (1 : K) ≤ (1 + ε) ^ ((ord fw.length).depth + 1) := one_le_pow₀ (by linarith)
        linarith
      have e3 := le_trans (le_trans e1 (mul_le_mul_of_nonneg_left e2 hp)) (mul_le_mul_of_nonneg_right (hγ hne) hMη)
      have e4 : |(fw.map fun r => disp.get r j l).sum / fw.length - meanOver fw fun r => x r j l| ≤ η :=
        mean_near hne fun r hr => he r (hfw r hr) j hj l
      have e5 : |meanOver fw fun r => disp.get r j l| ≤ M + η := meanOver_bound hMη hb
      have e6 := abs_le_of_near e3 e5
      generalize fl (sumFl fl ord (fw.map fun r => disp.get r j l) / fw.length) = μ at *
      have e7 := abs_trans e3 e4
      have e8 := he i hi j hj l
      have e9 : |disp.get i j l - μ| ≤ (2 + γ) * (M + η) := by
        have := abs_sub_le' (a := disp.get i j l) (b := μ)
        have := abs_le_of_near e8 (hM i hi j hj l)
        linarith
      have e10 := h.bound hε e9
      unfold relTo driftError
      have e11 : |(disp.get i j l - μ) - (x i j l - meanOver fw fun r => x r j l)| ≤ 2 * η + γ * (M + η) := by
        have := abs_sub_le' (a := disp.get i j l - x i j l) (b := μ - meanOver fw fun r => x r j l)
        rw [show disp.get i j l - x i j l - (μ - meanOver fw fun r => x r j l) =
          (disp.get i j l - μ) - (x i j l - meanOver fw fun r => x r j l) by ring] at this
        linarith
      have := abs_trans e10 e11
      linarith

/-- The windows in floating point arithmetic. -/
theorem multiOriginFl_error {fl : K → K} {ε θ M : K} (h : RelErr fl ε) (hε : 0 ≤ ε) {n F : ℕ} {dc : Arr3 K} (h1 : dc.n1 = F)
    {y : ℕ → ℕ → V3 K} (hθ : 0 ≤ θ) (hM0 : 0 ≤ M) (hM : ∀ i < n, ∀ j < F, ∀ l, |y i j l| ≤ 2 * M)
    (he : ∀ i < n, ∀ j < F, ∀ l, |dc.get i j l - y i j l| ≤ θ) {atoms : List ℕ} (hat : ∀ a ∈ atoms, a < n) {τ : ℕ} (hτ1 : 1 ≤ τ) (hτ : τ ≤ F) :
    ∃ a, multiOriginFl fl dc atoms τ = .ok a ∧ a.n0 = atoms.length ∧ a.n1 = F - τ + 1 ∧ ∀ s, (hs : s < atoms.length) →
      (∀ l, |a.get s 0 l - y atoms[s] (τ - 1) l| ≤ windowError ε θ M) ∧
      ∀ k < F - τ, ∀ l, |a.get s (k + 1) l - (y atoms[s] (k + τ) l - y atoms[s] k l)| ≤ windowError ε θ M := by
  have hv : ValidIdx dc.n1 ((τ : ℤ) - 1) := by constructor <;> omega
  have ha : atomOf dc.n1 ((τ : ℤ) - 1) = τ - 1 := by unfold atomOf; rw [if_neg (by omega)]; omega
  refine ⟨{ n0 := atoms.length, n1 := 1 + (dc.n1 - τ), get := fun r k => let row := atoms.getD r 0
            if k = 0 then dc.get row (τ - 1) else fun l => fl (dc.get row (τ + (k - 1)) l - dc.get row (k - 1) l) }, ?_, rfl, ?_, ?_⟩
  · unfold multiOriginFl
    rw [npIdx_valid hv, ha]
    simp only [bind, Except.bind]
    rw [sliceBound_nat, sliceBound_neg _ _ hτ1, min_eq_left (by omega), if_neg (by omega)]
  · simp only; omega
  · intro s hs
    have hi := hat _ (List.getElem_mem hs)
    have hrow : atoms.getD s 0 = atoms[s] := by rw [List.getD_eq_getElem?_getD, List.getElem?_eq_getElem hs]; rfl
    have hW : θ ≤ windowError ε θ M := by
      unfold windowError
      have : 0 ≤ ε * (4 * M + 2 * θ) := by positivity
      linarith
    constructor
    · intro l
      simp only [hrow, if_true]
      exact le_trans (he _ hi _ (by omega) l) hW
    · intro k hk l
      simp only [hrow, Nat.add_sub_cancel, Nat.succ_ne_zero, if_false]
      rw [Nat.add_comm τ k]
      have a1 := he _ hi (k + τ) (by omega) l
      have a2 := he _ hi k (by omega) l
      have b1 := hM _ hi (k + τ) (by omega) l
      have b2 := hM _ hi k (by omega) l
      generalize dc.get atoms[s] (k + τ) l = p at *
      generalize dc.get atoms[s] k l = q at *
      generalize y atoms[s] (k + τ) l = p' at *
      generalize y atoms[s] k l = q' at *
      have c1 : |(p - q) - (p' - q')| ≤ 2 * θ := by
        have := abs_sub_le' (a := p - p') (b := q - q')
        rw [show p - p' - (q - q') = (p - q) - (p' - q') by ring] at this
        linarith
      have c2 : |p' - q'| ≤ 4 * M := by
        have := abs_sub_le' (a := p') (b := q')
        linarith
      have c3 := h.bound hε (abs_le_of_near c1 c2)
      have := abs_trans c3 c1
      unfold windowError
      linarith

theorem sq_near {a b e W : K} (h : |a - b| ≤ e) (hb : |b| ≤ W) : |a ^ 2 - b ^ 2| ≤ e * (2 * W + e) := by
  have he : 0 ≤ e := le_trans (abs_nonneg _) h
  have h1 : |a + b| ≤ 2 * W + e := by
    have := abs_le_of_near h hb
    have := abs_add_le a b
    linarith
  rw [show a ^ 2 - b ^ 2 = (a - b) * (a + b) by ring, abs_mul]
  exact mul_le_mul h h1 (abs_nonneg _) he

theorem sum_axes_near {axes : List (Fin 3)} (hl : axes.length ≤ 3) {v w : V3 K} {e : K} (h : ∀ l, |v l ^ 2 - w l ^ 2| ≤ e) :
    |(axes.map fun x => v x ^ 2).sum - (axes.map fun x => w x ^ 2).sum| ≤ 3 * e := by
  have he : 0 ≤ e := le_trans (abs_nonneg _) (h 0)
  have : ∀ l : List (Fin 3), |(l.map fun x => v x ^ 2).sum - (l.map fun x => w x ^ 2).sum| ≤ l.length * e := by
    intro l
    induction l with
    | nil => simp
    | cons a l ih =>
      simp only [List.map_cons, List.sum_cons, List.length_cons]
      have := abs_add_le (v a ^ 2 - w a ^ 2) ((l.map fun x => v x ^ 2).sum - (l.map fun x => w x ^ 2).sum)
      rw [show v a ^ 2 - w a ^ 2 + ((l.map fun x => v x ^ 2).sum - (l.map fun x => w x ^ 2).sum) =
        v a ^ 2 + (l.map fun x => v x ^ 2).sum - (w a ^ 2 + (l.map fun x => w x ^ 2).sum) by ring] at this
      have := h a
      push_cast
      linarith
  refine le_trans (this axes) (mul_le_mul_of_nonneg_right ?_ he)
  exact_mod_cast hl

/-- The rounded mean square of displacements that are known up to `ω`. -/
theorem meanSquare_near {fl : K → K} {ε γ ω W : K} (h : RelErr fl ε) (hε : 0 ≤ ε) {ord : ℕ → SumOrder} (ho : ValidOrder ord) {axes : List (Fin 3)}
    (hax : axes ≠ []) (hnd : axes.Nodup) {a b : Arr3 K} (e0 : a.n0 = b.n0) (e1 : a.n1 = b.n1) (hn : 0 < b.n0 * b.n1)
    (hab : ∀ s < b.n0, ∀ k < b.n1, ∀ l, |a.get s k l - b.get s k l| ≤ ω) (hb : ∀ s < b.n0, ∀ k < b.n1, ∀ l, |b.get s k l| ≤ W)
    (hγ : (1 + ε) ^ ((ord axes.length).depth + (ord (b.n0 * b.n1)).depth + 2) - 1 ≤ γ) :
    ∃ r, meanFl fl ord (dSquaredFl fl ord axes a) = some r ∧ |r - msd axes.toFinset b| ≤ msdError γ ω W (msd axes.toFinset b) := by
  have hγ0 : 0 ≤ γ := by
    have : (1 : K) ≤ (1 + ε) ^ ((ord axes.length).depth + (ord (b.n0 * b.n1)).depth + 2) := one_le_pow₀ (by linarith)
    linarith
  obtain ⟨r, m', hr, hm, hm0, hre⟩ := meanSquare_error h hε ho hax a (by rw [e0, e1]; exact hn)
  have hmb : npMean (dSquared axes b) = some (msd axes.toFinset b) := by
    have hs := dSquared_map_sum hnd b id
    simp only [List.map_id, id] at hs
    unfold npMean
    rw [if_neg (by rw [dSquared_length]; omega), dSquared_length, hs]
    congr 1
    unfold msd sqLen pairs
    rw [Finset.sum_product, Nat.cast_mul]
  generalize msd axes.toFinset b = T at *
  have hnear : |m' - T| ≤ 3 * (ω * (2 * W + ω)) := by
    rw [dSquared_product] at hm hmb
    have hPne : List.range b.n0 ×ˢ List.range b.n1 ≠ [] := by
      intro h0
      have := congrArg List.length h0
      rw [List.length_product, List.length_range, List.length_range, List.length_nil] at this
      omega
    rw [e0, e1] at hm
    unfold npMean at hm hmb
    rw [if_neg (by simpa using hPne), List.length_map] at hm
    rw [if_neg (by simpa using hPne), List.length_map] at hmb
    rw [← Option.some.inj hm, ← Option.some.inj hmb]
    have hax3 : axes.length ≤ 3 := by simpa using hnd.length_le_card
    refine mean_near hPne fun p hp => sum_axes_near hax3 fun l => ?_
    rw [List.mem_product, List.mem_range, List.mem_range] at hp
    exact sq_near (hab p.1 hp.1 p.2 hp.2 l) (hb p.1 hp.1 p.2 hp.2 l)
  refine ⟨r, hr, ?_⟩
  rw [e0, e1] at hre
  have e1 := le_trans hre (mul_le_mul_of_nonneg_right hγ hm0)
  have e2 := abs_le.mp hnear
  have e3 := abs_trans e1 hnear
  refine le_trans e3 ?_
  unfold msdError
  have : γ * m' ≤ γ * (T + 3 * (ω * (2 * W + ω))) := mul_le_mul_of_nonneg_left (by linarith) hγ0
  nlinarith

/-- A sum over atoms, with rounded products with the charges or without. -/
theorem total_near {fl : K → K} {ε γ ω W Q : K} (h : RelErr fl ε) (hε : 0 ≤ ε) {ord : ℕ → SumOrder} (ho : ValidOrder ord) {N : ℕ} (hN : 0 < N)
    (hQ0 : 0 ≤ Q) (hγ : (1 + ε) ^ (ord N).depth - 1 ≤ γ) {x y z q : ℕ → K} (hxy : ∀ i < N, |x i - y i| ≤ ω) (hy : ∀ i < N, |y i| ≤ W) (hq : ∀ i < N, |q i| ≤ Q)
    (hz : ∀ i < N, |z i - q i * x i| ≤ ε * |q i * x i|) :
    |sumFl fl ord ((List.range N).map z) - ∑ i ∈ Finset.range N, q i * y i| ≤ totalError ε γ ω W Q N := by
  have hW0 : 0 ≤ W := le_trans (abs_nonneg _) (hy 0 hN)
  have hω0 : 0 ≤ ω := le_trans (abs_nonneg _) (hxy 0 hN)
  have hne : (List.range N).map z ≠ [] := by simp; omega
  have h1 := sumFl_error h hε ho hne
  rw [List.length_map, List.length_range] at h1
  have hqx : ∀ i < N, |q i * x i| ≤ Q * (W + ω) := fun i hi => by
    rw [abs_mul]
    exact mul_le_mul (hq i hi) (abs_le_of_near (hxy i hi) (hy i hi)) (abs_nonneg _) hQ0
  have hze : ∀ i < N, |z i - q i * x i| ≤ ε * (Q * (W + ω)) := fun i hi => le_trans (hz i hi) (mul_le_mul_of_nonneg_left (hqx i hi) hε)
  have hzb : ∀ i < N, |z i| ≤ (1 + ε) * (Q * (W + ω)) := fun i hi => by
    have := abs_le_of_near (hze i hi) (hqx i hi)
    linarith
  have h2 : (((List.range N).map z).map fun x => |x|).sum ≤ N * ((1 + ε) * (Q * (W + ω))) := by
    have := sum_le_length (l := ((List.range N).map z).map fun x => |x|) (T := (1 + ε) * (Q * (W + ω))) (by
      intro y hy
      simp only [List.map_map, List.mem_map, List.mem_range, Function.comp] at hy
      obtain ⟨i, hi, rfl⟩ := hy
      exact hzb i hi)
    simpa using this
  have hp0 : (0 : K) ≤ (1 + ε) ^ (ord N).depth - 1 := by
    have : (1 : K) ≤ (1 + ε) ^ (ord N).depth := one_le_pow₀ (by linarith)
    linarith
  have h3 : |sumFl fl ord ((List.range N).map z) - ((List.range N).map z).sum| ≤ γ * (N * ((1 + ε) * (Q * (W + ω)))) :=
    le_trans (le_trans h1 (mul_le_mul_of_nonneg_left h2 hp0)) (mul_le_mul_of_nonneg_right hγ (by positivity))
  have h4 : |((List.range N).map z).sum - ∑ i ∈ Finset.range N, q i * y i| ≤ N * (ε * (Q * (W + ω)) + Q * ω) := by
    have e : ((List.range N).map z).sum = ∑ i ∈ Finset.range N, z i := by
      rw [Finset.sum_range, ← List.sum_ofFn]
      congr 1
      apply List.ext_getElem <;> simp
    rw [e, ← Finset.sum_sub_distrib]
    refine le_trans (Finset.abs_sum_le_sum_abs _ _) ?_
    have := Finset.sum_le_card_nsmul (Finset.range N) (fun i => |z i - q i * y i|) (ε * (Q * (W + ω)) + Q * ω) (by
      intro i hi
      have hi := Finset.mem_range.mp hi
      refine abs_trans (hze i hi) ?_
      rw [← mul_sub, abs_mul]
      exact mul_le_mul (hq i hi) (hxy i hi) (abs_nonneg _) hQ0)
    rw [Finset.card_range, nsmul_eq_mul] at this
    exact this
  refine le_trans (abs_trans h3 h4) (le_of_eq ?_)
  unfold totalError
  ring

end Kinisi
