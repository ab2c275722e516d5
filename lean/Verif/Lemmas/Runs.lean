import Verif.Lemmas.Bootstrap
import Verif.Spec.Runs

/-!
# When the constructors of the bootstrap classes succeed, with and without resampling and blocking
-/

set_option linter.unusedSectionVars false
set_option linter.unusedVariables false

namespace Kinisi
open Spec
variable {K : Type} [Field K] [LinearOrder K] [IsStrictOrderedRing K] [FloorRing K] {G : Type}

theorem pyInt_pos {x : K} (h : 1 ≤ x) : 1 ≤ pyInt x := by
  unfold pyInt
  rw [if_pos (zero_le_one.trans h)]
  exact Int.le_floor.2 (by simpa using h)

theorem bootstrapMeans_ok {o : Oracle K G} {l : List K} (hl : l ≠ []) {k : K} (hk : 1 ≤ k) : ∀ (n : ℕ) (g : G),
    ∃ r, bootstrapMeans o l k n g = .ok r := by
  intro n
  induction n with
  | zero => intro g; exact ⟨_, rfl⟩
  | succ n ih =>
    intro g
    have h1 : ∃ m g1, resampleMean o g l k = .ok (m, g1) := by
      cases l with
      | nil => exact absurd rfl hl
      | cons x xs =>
        unfold resampleMean
        simp only
        have := pyInt_pos hk
        rw [if_neg (by omega)]
        exact ⟨_, _, rfl⟩
    obtain ⟨m, g1, h1⟩ := h1
    obtain ⟨⟨ms, g2⟩, h2⟩ := ih g1
    refine ⟨(m :: ms, g2), ?_⟩
    simp only [bootstrapMeans]
    rw [h1]
    simp only
    rw [h2]

theorem untilNormalLoop_ok {o : Oracle K G} {l : List K} (hl : l ≠ []) {k alpha : K} (hk : 1 ≤ k) {maxR : ℕ}
    (ho : ∀ l : List K, 8 ≤ l.length → ∃ p, o.normaltest l = .ok p) : ∀ (d : ℕ) (vals : List K) (p : Option K) (g : G),
    8 ≤ vals.length → maxR - vals.length ≤ d → ∃ r, untilNormalLoop o l k alpha maxR vals p g = .ok r := by
  intro d
  induction d with
  | zero =>
    intro vals p g h8 hd
    unfold untilNormalLoop
    rw [dif_neg (by rintro ⟨-, h⟩; omega)]
    exact ⟨_, rfl⟩
  | succ d ih =>
    intro vals p g h8 hd
    unfold untilNormalLoop
    by_cases hc : pBelow p alpha = true ∧ vals.length < maxR
    · rw [dif_pos hc]
      obtain ⟨⟨more, g1⟩, hm⟩ := bootstrapMeans_ok (o := o) hl hk 100 g
      have hlen := bootstrapMeans_length o l k 100 g hm
      simp only at hlen
      split
      · rename_i e he
        rw [hm] at he
        cases he
      · rename_i more' g1' he
        rw [hm] at he
        obtain ⟨rfl, rfl⟩ := Prod.mk.inj (Except.ok.inj he)
        obtain ⟨p1, hp1⟩ := ho (vals ++ more) (by rw [List.length_append]; omega)
        rw [hp1]
        exact ih _ _ _ (by rw [List.length_append]; omega) (by rw [List.length_append]; omega)
    · rw [dif_neg hc]
      exact ⟨_, rfl⟩

theorem sampleUntilNormal_ok {o : Oracle K G} {l : List K} (hl : l ≠ []) {k : K} (hk : 1 ≤ k) {nR maxR : ℕ} (hR : 8 ≤ nR) {alpha : K}
    (ho : ∀ l : List K, 8 ≤ l.length → ∃ p, o.normaltest l = .ok p) (g : G) :
    ∃ r, sampleUntilNormal o l k nR maxR alpha g = .ok r := by
  obtain ⟨⟨vals, g1⟩, h1⟩ := bootstrapMeans_ok (o := o) hl hk nR g
  have hlen := bootstrapMeans_length o l k nR g h1
  simp only at hlen
  obtain ⟨p, hp⟩ := ho vals (by omega)
  obtain ⟨⟨v2, p2, g2⟩, h2⟩ := untilNormalLoop_ok (alpha := alpha) hl hk (maxR := maxR) ho _ vals p g1 (by omega) le_rfl
  unfold sampleUntilNormal
  rw [h1]
  simp only
  rw [hp]
  simp only
  rw [h2]
  exact ⟨_, rfl⟩

/-- **Success of the loop** for any options. -/
theorem loop_runs {sq : K → K} {o : Oracle K G} {opt : BootOpts K} (ho : StatisticsRun o opt)
    {Q : Quantity K} {nO : List K} {b0 : Boot K} {g : G}
    (h0 : b0.n = [] ∧ b0.v = [] ∧ b0.s = [] ∧ b0.ngp = [] ∧ b0.dt = [] ∧ b0.euclid = []) {P : ℕ}
    (hn : P ≤ nO.length) (ht : P ≤ b0.deltaT.length) :
    ∀ count, (∀ i < count, ∃ a l, b0.displacements[i]? = some a ∧ Q.sample a = .ok l ∧ (2 ≤ l.length ↔ i < P) ∧
        ∀ no, nO[i]? = some no → ∃ e, Q.eff no a.n0 = some e ∧ 1 ≤ e) →
      ∃ b g', (List.range count).foldlM (observe sq o opt Q nO) (b0, g) = .ok (b, g') ∧ (opt.bootstrap = false → g' = g) := by
  intro count
  induction count with
  | zero => intro _; exact ⟨b0, g, rfl, fun _ => rfl⟩
  | succ count ih =>
    intro h
    obtain ⟨b1, g1, hb1, hg1⟩ := ih (fun i hi => h i (by omega))
    rw [foldlM_range_succ, hb1]
    obtain ⟨hfix, P', hP', hrec, hskip⟩ := loop_inv h0 count hb1
    obtain ⟨a, l, ha, hl, hlen, heff⟩ := h count (by omega)
    simp only [Except.bind]
    unfold observe
    simp only [bind, Except.bind]
    rw [pyGet_ok (by rw [hfix.displacements]; exact ha)]
    simp only
    rw [hl]
    simp only
    by_cases hc : 2 ≤ l.length
    · rw [if_neg (by omega)]
      have hcP := hlen.mp hc
      have hP'c : P' = count := by
        by_contra hne
        obtain ⟨a', l', ha', hl', hlen'⟩ := hskip P' (le_refl _) (by omega)
        obtain ⟨a'', l'', ha'', hl'', hlen'', -⟩ := h P' (by omega)
        rw [ha'] at ha''
        obtain rfl := Option.some.inj ha''
        rw [hl'] at hl''
        obtain rfl := Except.ok.inj hl''
        have := hlen''.mpr (by omega)
        omega
      subst hP'c
      have hno : nO[P']? = some (nO[P']'(by omega)) := List.getElem?_eq_getElem (by omega)
      obtain ⟨e, he, h1e⟩ := heff _ hno
      have hne : l ≠ [] := by rintro rfl; simp at hc
      -- the resampling block
      have hboot : ∃ x g2, bootstrapBlock sq o opt Q nO P' a l { b1 with euclid := b1.euclid ++ [(dSquared b1.axes a).map sq] } g1 = .ok (x, g2) ∧
          x.v = b1.v ∧ x.deltaT = b1.deltaT ∧ (opt.bootstrap = false → g2 = g) := by
        unfold bootstrapBlock
        cases hb : opt.bootstrap with
        | false =>
          simp only [Bool.false_eq_true, if_false]
          exact ⟨_, _, rfl, rfl, rfl, fun _ => hg1 hb⟩
        | true =>
          obtain ⟨hR, hnt⟩ := ho.normal hb
          obtain ⟨⟨vals, w, g2⟩, hs⟩ := sampleUntilNormal_ok (o := o) hne h1e hR (maxR := opt.maxResamples) (alpha := opt.alpha) hnt g1
          simp only [if_true, bind, Except.bind]
          rw [pyGet_ok hno]
          simp only
          rw [he]
          simp only
          rw [hs]
          refine ⟨_, _, rfl, rfl, rfl, fun h => ?_⟩
          cases h
      obtain ⟨x, g2, hx, hxv, hxt, hg2⟩ := hboot
      rw [hx]
      simp only
      have hvar : ∃ y, varianceBlock sq o opt Q nO P' a l x = .ok y ∧ y.deltaT = x.deltaT := by
        have hvi : ∀ w : Option K, (x.v ++ [w])[P']? = some w := by
          intro w
          rw [hxv, getElem?_snoc hrec.lv _ (by omega), if_neg (by omega)]
        unfold varianceBlock
        cases hk : opt.block with
        | false =>
          simp only [Bool.false_eq_true, if_false]
          rw [npMean_eq hc]
          simp only [bind, Except.bind]
          rw [pyGet_ok hno]
          simp only
          rw [pyGet_ok (hvi _)]
          exact ⟨_, rfl, rfl⟩
        | true =>
          obtain ⟨⟨m, v⟩, hr⟩ := ho.block hk l hc
          simp only [if_true, bind, Except.bind]
          rw [hr]
          simp only
          rw [pyGet_ok (hvi _)]
          exact ⟨_, rfl, rfl⟩
      obtain ⟨y, hy, hyt⟩ := hvar
      rw [hy]
      simp only
      rw [hyt, hxt, hfix.deltaT, pyGet_ok (List.getElem?_eq_getElem (show P' < b0.deltaT.length by omega))]
      exact ⟨_, _, rfl, hg2⟩
    · rw [if_pos (by omega)]
      exact ⟨_, _, rfl, hg1⟩

theorem observeAll_runs {sq : K → K} {o : Oracle K G} {opt : BootOpts K} (ho : StatisticsRun o opt)
    {Q : Quantity K} {nO : List K} {b0 : Boot K} {g : G}
    (h0 : b0.n = [] ∧ b0.v = [] ∧ b0.s = [] ∧ b0.ngp = [] ∧ b0.dt = [] ∧ b0.euclid = []) {P : ℕ}
    (hn : P ≤ nO.length) (ht : P ≤ b0.deltaT.length) (count : ℕ)
    (h : ∀ i < count, ∃ a l, b0.displacements[i]? = some a ∧ Q.sample a = .ok l ∧ (2 ≤ l.length ↔ i < P) ∧
        ∀ no, nO[i]? = some no → ∃ e, Q.eff no a.n0 = some e ∧ 1 ≤ e) :
    ∃ b g', observeAll sq o opt Q nO count b0 g = .ok (b, g') ∧ (opt.bootstrap = false → g' = g) := by
  obtain ⟨b, g', hb, hg⟩ := loop_runs (sq := sq) ho h0 hn ht count h
  unfold observeAll
  rw [hb]
  exact ⟨_, _, rfl, hg⟩

end Kinisi
