import Verif.Props.Resample

/-!
# Helper lemmas about the bootstrap arrays
-/

set_option linter.unusedSectionVars false
set_option linter.unusedVariables false

namespace Kinisi
open Spec
variable {K : Type} [Field K] [LinearOrder K] [IsStrictOrderedRing K] [FloorRing K] {G : Type}

/-- The list holds the values of `f` on `S`, each once. -/
def Lists {ι : Type} (l : List K) (S : Finset ι) (f : ι → K) : Prop :=
  l.length = S.card ∧ (∀ φ : K → K, (l.map φ).sum = ∑ p ∈ S, φ (f p)) ∧ ∀ x ∈ l, ∃ p ∈ S, x = f p

theorem Lists.mean {ι : Type} {l : List K} {S : Finset ι} {f : ι → K} (h : Lists l S f) (h2 : 2 ≤ l.length) :
    npMean l = some (meanOn S f) := by
  rw [npMean_eq h2, meanOn, h.1]
  have := h.2.1 id
  simp only [List.map_id, id] at this
  rw [this]

theorem Lists.var {ι : Type} {l : List K} {S : Finset ι} {f : ι → K} (h : Lists l S f) (h2 : 2 ≤ l.length) :
    npVar1 l = some (varOn S f) := by
  have hm := h.mean h2
  rw [npMean_eq h2] at hm
  rw [npVar1_eq h2, Option.some.inj hm, h.2.1, varOn, h.1]

theorem lists_self (l : List K) : Lists l Finset.univ fun j : Fin l.length => l[j] := by
  refine ⟨by simp, fun φ => ?_, fun x hx => ?_⟩
  · rw [← List.sum_ofFn]
    congr 1
    apply List.ext_getElem <;> simp
  · obtain ⟨i, hi, rfl⟩ := List.getElem_of_mem hx
    exact ⟨⟨i, hi⟩, Finset.mem_univ _, rfl⟩

theorem lists_dSquared {axes : List (Fin 3)} (hn : axes.Nodup) (a : Arr3 K) :
    Lists (dSquared axes a) (pairs a) (sqLen axes.toFinset a) := by
  refine ⟨by rw [dSquared_length, pairs_card], dSquared_map_sum hn a, fun x hx => ?_⟩
  unfold dSquared at hx
  simp only [List.mem_flatMap, List.mem_map, List.mem_range] at hx
  obtain ⟨i, hi, k, hk, rfl⟩ := hx
  refine ⟨(i, k), by simp [pairs, hi, hk], ?_⟩
  rw [sqLen, sum_axes_list hn]

theorem lists_range (n : ℕ) (f : ℕ → K) : Lists ((List.range n).map f) (Finset.range n) f := by
  refine ⟨by simp, fun φ => ?_, fun x hx => ?_⟩
  · rw [List.map_map, sum_range_list]; rfl
  · simp only [List.mem_map, List.mem_range] at hx
    obtain ⟨k, hk, rfl⟩ := hx
    exact ⟨k, by simpa using hk, rfl⟩

theorem varOn_nonneg {ι : Type} {S : Finset ι} {f : ι → K} (h : 2 ≤ S.card) : 0 ≤ varOn S f := by
  apply div_nonneg (Finset.sum_nonneg fun p _ => sq_nonneg _)
  have : (1 : K) ≤ (S.card : K) := by exact_mod_cast (by omega : 1 ≤ S.card)
  linarith

theorem meanOfDraws {ι : Type} {l : List K} {S : Finset ι} {f : ι → K} (h : Lists l S f) {k : ℕ} {x : K} (hx : IsMeanOfDraws l k x) :
    MeanOfDraws S f k x := by
  obtain ⟨d, rfl, hd, rfl⟩ := hx
  choose g hg using fun j : Fin d.length => h.2.2 d[j] (hd _ (List.getElem_mem _))
  refine ⟨g, fun j => (hg j).1, ?_⟩
  congr 1
  rw [Finset.sum_congr rfl fun j _ => ((hg j).2).symm, ← List.sum_ofFn]
  congr 1
  apply List.ext_getElem <;> simp

/-- All values `sample_until_normal` returns are means of draws. -/
theorem untilNormalLoop_means {o : Oracle K G} {l : List K} {nSamples alpha : K} {maxR : ℕ} {vals : List K} {p : Option K} {g : G}
    {r : List K × Option K × G} (h : untilNormalLoop o l nSamples alpha maxR vals p g = .ok r) {φ : K → Prop}
    (hb : ∀ n g vals g', bootstrapMeans o l nSamples n g = .ok (vals, g') → ∀ m ∈ vals, φ m) (hv : ∀ m ∈ vals, φ m) :
    ∀ m ∈ r.1, φ m := by
  fun_induction untilNormalLoop o l nSamples alpha maxR vals p g with
  | case1 vals p g hc e hb => cases h
  | case2 vals p g hc more g1 hb e hn => cases h
  | case3 vals p g hc more g1 hbm p1 hn ih =>
    refine ih h ?_
    intro m hm
    rcases List.mem_append.mp hm with hm | hm
    · exact hv m hm
    · exact hb _ _ _ _ hbm m hm
  | case4 vals p g hc =>
    obtain rfl := Except.ok.inj h
    exact hv

theorem sampleUntilNormal_means {o : Oracle K G} {l : List K} {nSamples : K} {nR maxR : ℕ} {alpha : K} {g g' : G} {vals : List K}
    {w : Bool} (h : sampleUntilNormal o l nSamples nR maxR alpha g = .ok (vals, w, g')) :
    ∀ m ∈ vals, 1 ≤ pyInt nSamples ∧ IsMeanOfDraws l (pyInt nSamples).toNat m := by
  have key : ∀ n g vals g', bootstrapMeans o l nSamples n g = .ok (vals, g') →
      ∀ m ∈ vals, 1 ≤ pyInt nSamples ∧ IsMeanOfDraws l (pyInt nSamples).toNat m := fun n g vals g' hb m hm =>
    ⟨((C39_bootstrap_means o l nSamples n g g' vals hb).2 m hm).1, ((C39_bootstrap_means o l nSamples n g g' vals hb).2 m hm).2.1⟩
  unfold sampleUntilNormal at h
  cases hb : bootstrapMeans o l nSamples nR g with
  | error e => rw [hb] at h; cases h
  | ok r =>
  obtain ⟨v0, g1⟩ := r
  rw [hb] at h
  simp only at h
  cases hn : o.normaltest v0 with
  | error e => rw [hn] at h; cases h
  | ok p =>
  rw [hn] at h
  simp only at h
  cases hl : untilNormalLoop o l nSamples alpha maxR v0 p g1 with
  | error e => rw [hl] at h; cases h
  | ok r =>
  rw [hl] at h
  obtain ⟨v1, p1, g2⟩ := r
  obtain ⟨rfl, -⟩ := Prod.mk.inj (Except.ok.inj h)
  exact untilNormalLoop_means hl key (key _ _ _ _ hb)

/-- `int` of a value of at least one is its floor. -/
theorem pyInt_floor {x : K} (h : 1 ≤ pyInt x) : (pyInt x).toNat = ⌊x⌋₊ := by
  unfold pyInt at h ⊢
  split_ifs at h ⊢ with h0
  · rfl
  · exfalso
    have : ⌈x⌉ ≤ 0 := Int.ceil_le.mpr (by push_cast; exact (not_le.mp h0).le)
    omega

/-- What the loop has recorded in the bootstrap arrays for the first `P` intervals. -/
structure BootRecorded (sq : K → K) (o : Oracle K G) (opt : BootOpts K) (Q : Quantity K) (nO : List K) (b0 : Boot K) (P : ℕ)
    (b : Boot K) : Prop where
  ld : b.distributions.length = P
  ln : b.nBoot.length = P
  lv : b.vBoot.length = P
  ls : b.sBoot.length = P
  entry : ∀ i < P, ∃ a l no eff vals w g1 g2, b0.displacements[i]? = some a ∧ Q.sample a = .ok l ∧ nO[i]? = some no ∧
    Q.eff no a.n0 = some eff ∧ sampleUntilNormal o l eff opt.nResamples opt.maxResamples opt.alpha g1 = .ok (vals, w, g2) ∧
    b.distributions[i]? = some vals ∧ b.nBoot[i]? = some (npMean vals) ∧ b.vBoot[i]? = some (npVar1 vals) ∧
    b.sBoot[i]? = some (npSqrt sq (npVar1 vals))

theorem varianceBlock_boot {sq : K → K} {o : Oracle K G} {opt : BootOpts K} {Q : Quantity K} {nO : List K} {i : ℕ}
    {a : Arr3 K} {l : List K} {b r : Boot K} (h : varianceBlock sq o opt Q nO i a l b = .ok r) :
    r.distributions = b.distributions ∧ r.nBoot = b.nBoot ∧ r.vBoot = b.vBoot ∧ r.sBoot = b.sBoot := by
  obtain ⟨m, w, vi, -, -, rfl⟩ := varianceBlock_inv h
  exact ⟨rfl, rfl, rfl, rfl⟩

theorem boot_loop_inv {sq : K → K} {o : Oracle K G} {opt : BootOpts K} (hopt : opt.bootstrap = true) {Q : Quantity K} {nO : List K}
    {b0 : Boot K} {g : G} (h0 : b0.n = [] ∧ b0.v = [] ∧ b0.s = [] ∧ b0.ngp = [] ∧ b0.dt = [] ∧ b0.euclid = [])
    (hb0 : b0.distributions = [] ∧ b0.nBoot = [] ∧ b0.vBoot = [] ∧ b0.sBoot = []) :
    ∀ (count : ℕ) {b : Boot K} {g' : G}, (List.range count).foldlM (observe sq o opt Q nO) (b0, g) = .ok (b, g') →
      BootRecorded sq o opt Q nO b0 b.n.length b := by
  intro count
  induction count with
  | zero =>
    intro b g' h
    obtain ⟨rfl, rfl⟩ := Prod.mk.inj (Except.ok.inj h)
    obtain ⟨h1, h2, h3, h4⟩ := hb0
    rw [h0.1]
    exact ⟨by rw [h1]; rfl, by rw [h2]; rfl, by rw [h3]; rfl, by rw [h4]; rfl, fun i hi => absurd hi (by simp)⟩
  | succ count ih =>
    intro b g' h
    obtain ⟨-, P', hP', hrec', hskip'⟩ := loop_inv h0 (count + 1) h
    rw [foldlM_range_succ] at h
    cases hc : (List.range count).foldlM (observe sq o opt Q nO) (b0, g) with
    | error e => rw [hc] at h; cases h
    | ok bg =>
    rw [hc] at h
    obtain ⟨b1, g1⟩ := bg
    obtain ⟨hfix, P, hP, hrec, hskip⟩ := loop_inv h0 count hc
    have hboot := ih hc
    simp only [Except.bind] at h
    unfold observe at h
    simp only [bind, Except.bind] at h
    cases ha : pyGet b1.displacements count with
    | error e => rw [ha] at h; cases h
    | ok a =>
    rw [ha] at h
    simp only at h
    have ha' := pyGet_inv ha
    rw [hfix.displacements] at ha'
    cases hl : Q.sample a with
    | error e => rw [hl] at h; cases h
    | ok l =>
    rw [hl] at h
    simp only at h
    by_cases hlen : l.length ≤ 1
    · rw [if_pos hlen] at h
      obtain ⟨rfl, rfl⟩ := Prod.mk.inj (Except.ok.inj h)
      exact hboot
    rw [if_neg hlen] at h
    have hPc : P' = count + 1 := by
      by_contra hne
      obtain ⟨a', l', e1, e2, e3⟩ := hskip' count (by omega) (by omega)
      rw [ha'] at e1
      obtain rfl := Option.some.inj e1
      rw [hl] at e2
      obtain rfl := Except.ok.inj e2
      exact hlen e3
    subst hPc
    unfold bootstrapBlock at h
    rw [if_pos hopt] at h
    cases hg : pyGet nO count with
    | error e => rw [hg] at h; cases h
    | ok no =>
    rw [hg] at h
    simp only [bind, Except.bind] at h
    cases he : Q.eff no a.n0 with
    | none => rw [he] at h; cases h
    | some eff =>
    rw [he] at h
    simp only at h
    cases hs : sampleUntilNormal o l eff opt.nResamples opt.maxResamples opt.alpha g1 with
    | error e => rw [hs] at h; cases h
    | ok x =>
    rw [hs] at h
    obtain ⟨vals, w, g2⟩ := x
    simp only at h
    split at h
    · cases h
    rename_i b3 hvb
    obtain ⟨v1, v2, v3, v4⟩ := varianceBlock_boot hvb
    obtain ⟨m, ww, vi, -, -, hb3⟩ := varianceBlock_inv hvb
    dsimp only at v1 v2 v3 v4 hb3
    cases ht : pyGet b3.deltaT count with
    | error e => rw [ht] at h; cases h
    | ok t =>
    rw [ht] at h
    obtain ⟨rfl, rfl⟩ := Prod.mk.inj (Except.ok.inj h)
    have hn3 : b3.n.length = count + 1 := hrec'.ln
    have hn1 : b1.n.length = count := by
      rw [hb3] at hn3
      simp only [List.length_append, List.length_cons, List.length_nil] at hn3
      omega
    rw [hn1] at hboot
    dsimp only
    rw [hn3]
    refine ⟨by dsimp only; rw [v1]; simp [hboot.ld], by dsimp only; rw [v2]; simp [hboot.ln], by dsimp only; rw [v3]; simp [hboot.lv],
      by dsimp only; rw [v4]; simp [hboot.ls], ?_⟩
    intro i hi
    dsimp only
    rw [v1, v2, v3, v4, getElem?_snoc hboot.ld _ hi, getElem?_snoc hboot.ln _ hi, getElem?_snoc hboot.lv _ hi, getElem?_snoc hboot.ls _ hi]
    by_cases hiP : i < count
    · simp only [if_pos hiP]
      exact hboot.entry i hiP
    · obtain rfl : i = count := by omega
      simp only [lt_irrefl, if_false]
      exact ⟨a, l, no, eff, vals, w, g1, g2, ha', hl, pyGet_inv hg, he, hs, rfl, rfl, rfl, rfl⟩

theorem observeAll_boot {sq : K → K} {o : Oracle K G} {opt : BootOpts K} (hopt : opt.bootstrap = true) {Q : Quantity K} {nO : List K}
    {count : ℕ} {b0 b : Boot K} {g g' : G} (h0 : b0.n = [] ∧ b0.v = [] ∧ b0.s = [] ∧ b0.ngp = [] ∧ b0.dt = [] ∧ b0.euclid = [])
    (hb0 : b0.distributions = [] ∧ b0.nBoot = [] ∧ b0.vBoot = [] ∧ b0.sBoot = [])
    (h : observeAll sq o opt Q nO count b0 g = .ok (b, g')) : BootRecorded sq o opt Q nO b0 b.n.length b := by
  unfold observeAll at h
  cases hc : (List.range count).foldlM (observe sq o opt Q nO) (b0, g) with
  | error e => rw [hc] at h; cases h
  | ok bg =>
  rw [hc] at h
  obtain ⟨b1, g1⟩ := bg
  simp only [bind, Except.bind] at h
  obtain ⟨rfl, rfl⟩ := Prod.mk.inj (Except.ok.inj h)
  have hr := boot_loop_inv hopt h0 hb0 count hc
  exact ⟨hr.ld, hr.ln, hr.lv, hr.ls, hr.entry⟩

theorem bootInit_noBoot {deltaT : List K} {disp : List (Arr3 K)} {nO : List K} {sub : ℤ} {dimension : String} {b : Boot K}
    (h : bootInit deltaT disp nO sub dimension = .ok b) :
    b.distributions = [] ∧ b.nBoot = [] ∧ b.vBoot = [] ∧ b.sBoot = [] := by
  obtain ⟨ds, dts, sel, d0, -, -, -, -, rfl⟩ := bootInit_inv h
  exact ⟨rfl, rfl, rfl, rfl⟩

/-- Without `bootstrap` the four arrays stay as they are. -/
theorem noboot_loop {sq : K → K} {o : Oracle K G} {opt : BootOpts K} (hopt : opt.bootstrap = false) {Q : Quantity K} {nO : List K}
    {b0 : Boot K} {g : G} : ∀ (count : ℕ) {b : Boot K} {g' : G},
      (List.range count).foldlM (observe sq o opt Q nO) (b0, g) = .ok (b, g') →
      b.distributions = b0.distributions ∧ b.nBoot = b0.nBoot ∧ b.vBoot = b0.vBoot ∧ b.sBoot = b0.sBoot := by
  intro count
  induction count with
  | zero =>
    intro b g' h
    obtain ⟨rfl, rfl⟩ := Prod.mk.inj (Except.ok.inj h)
    exact ⟨rfl, rfl, rfl, rfl⟩
  | succ count ih =>
    intro b g' h
    rw [foldlM_range_succ] at h
    cases hc : (List.range count).foldlM (observe sq o opt Q nO) (b0, g) with
    | error e => rw [hc] at h; cases h
    | ok bg =>
    rw [hc] at h
    obtain ⟨b1, g1⟩ := bg
    obtain ⟨i1, i2, i3, i4⟩ := ih hc
    simp only [Except.bind] at h
    unfold observe at h
    simp only [bind, Except.bind] at h
    cases ha : pyGet b1.displacements count with
    | error e => rw [ha] at h; cases h
    | ok a =>
    rw [ha] at h
    simp only at h
    cases hl : Q.sample a with
    | error e => rw [hl] at h; cases h
    | ok l =>
    rw [hl] at h
    simp only at h
    by_cases hlen : l.length ≤ 1
    · rw [if_pos hlen] at h
      obtain ⟨rfl, rfl⟩ := Prod.mk.inj (Except.ok.inj h)
      exact ⟨i1, i2, i3, i4⟩
    rw [if_neg hlen] at h
    unfold bootstrapBlock at h
    rw [hopt] at h
    simp only [Bool.false_eq_true, if_false] at h
    split at h
    · cases h
    · rename_i b3 hvb
      obtain ⟨v1, v2, v3, v4⟩ := varianceBlock_boot hvb
      split at h
      · cases h
      · obtain ⟨rfl, rfl⟩ := Prod.mk.inj (Except.ok.inj h)
        dsimp only at v1 v2 v3 v4 ⊢
        exact ⟨v1.trans i1, v2.trans i2, v3.trans i3, v4.trans i4⟩

theorem observeAll_noboot {sq : K → K} {o : Oracle K G} {opt : BootOpts K} (hopt : opt.bootstrap = false) {Q : Quantity K} {nO : List K}
    {count : ℕ} {b0 b : Boot K} {g g' : G} (h : observeAll sq o opt Q nO count b0 g = .ok (b, g')) :
    b.distributions = b0.distributions ∧ b.nBoot = b0.nBoot ∧ b.vBoot = b0.vBoot ∧ b.sBoot = b0.sBoot := by
  unfold observeAll at h
  cases hc : (List.range count).foldlM (observe sq o opt Q nO) (b0, g) with
  | error e => rw [hc] at h; cases h
  | ok bg =>
  rw [hc] at h
  obtain ⟨b1, g1⟩ := bg
  simp only [bind, Except.bind] at h
  obtain ⟨rfl, rfl⟩ := Prod.mk.inj (Except.ok.inj h)
  have := noboot_loop hopt count hc
  exact this

theorem estimate_unique {o : Oracle K G} {opt opt' : BootOpts K} (hb : opt'.block = opt.block) {Q : Quantity K} {nO : List K} {i : ℕ}
    {a : Arr3 K} {l : List K} {m m' : K} {w w' : Option K} (h : Estimate o opt Q nO i a l m w) (h' : Estimate o opt' Q nO i a l m' w') :
    m' = m ∧ w' = w := by
  unfold Estimate at h h'
  rw [hb] at h'
  split_ifs at h h' with hc
  · obtain ⟨x, h1, rfl⟩ := h
    obtain ⟨x', h1', rfl⟩ := h'
    rw [h1] at h1'
    obtain ⟨rfl, rfl⟩ := Prod.mk.inj (Except.ok.inj h1')
    exact ⟨rfl, rfl⟩
  · obtain ⟨no, h1, h2, rfl⟩ := h
    obtain ⟨no', h1', h2', rfl⟩ := h'
    rw [h1] at h1'
    obtain rfl := Option.some.inj h1'
    rw [h2] at h2'
    exact ⟨(Option.some.inj h2').symm, rfl⟩

theorem list_ext_of {α : Type} {P : ℕ} {l l' : List α} (h : l.length = P) (h' : l'.length = P)
    (hi : ∀ i < P, ∃ x, l[i]? = some x ∧ l'[i]? = some x) : l' = l := by
  apply List.ext_getElem?
  intro i
  by_cases hlt : i < P
  · obtain ⟨x, h1, h2⟩ := hi i hlt
    rw [h1, h2]
  · rw [List.getElem?_eq_none (by omega), List.getElem?_eq_none (by omega)]

/-- Two runs of the loop with the same `block` differ at most in the bootstrap arrays. -/
theorem observeAll_flag {sq : K → K} {o : Oracle K G} {opt opt' : BootOpts K} (hb : opt'.block = opt.block) {Q : Quantity K}
    {nO : List K} {count : ℕ} {b0 b b' : Boot K} {g₁ g₂ g₁' g₂' : G}
    (h0 : b0.n = [] ∧ b0.v = [] ∧ b0.s = [] ∧ b0.ngp = [] ∧ b0.dt = [] ∧ b0.euclid = [])
    (h : observeAll sq o opt Q nO count b0 g₁ = .ok (b, g₁')) (h' : observeAll sq o opt' Q nO count b0 g₂ = .ok (b', g₂')) :
    b' = { b with distributions := b'.distributions, nBoot := b'.nBoot, vBoot := b'.vBoot, sBoot := b'.sBoot } := by
  obtain ⟨P, hP, hrec, hskip, hnO, b1, hfix, hb1⟩ := observeAll_inv h0 h
  obtain ⟨P', hP', hrec', hskip', hnO', b1', hfix', hb1'⟩ := observeAll_inv h0 h'
  obtain rfl : P' = P := by
    by_contra hne
    rcases lt_or_gt_of_ne hne with hlt | hlt
    · obtain ⟨a, l, m, w, t, e1, e2, e3, -⟩ := hrec.entry P' hlt
      obtain ⟨a', l', f1, f2, f3⟩ := hskip' P' (le_refl _) (by omega)
      rw [e1] at f1
      obtain rfl := Option.some.inj f1
      rw [e2] at f2
      obtain rfl := Except.ok.inj f2
      omega
    · obtain ⟨a, l, m, w, t, e1, e2, e3, -⟩ := hrec'.entry P hlt
      obtain ⟨a', l', f1, f2, f3⟩ := hskip P (le_refl _) (by omega)
      rw [e1] at f1
      obtain rfl := Option.some.inj f1
      rw [e2] at f2
      obtain rfl := Except.ok.inj f2
      omega
  have key : ∀ i < P', ∃ m w t q e, (b.n[i]? = some m ∧ b'.n[i]? = some m) ∧ (b.v[i]? = some w ∧ b'.v[i]? = some w) ∧
      (b.s[i]? = some (npSqrt sq w) ∧ b'.s[i]? = some (npSqrt sq w)) ∧ (b.ngp[i]? = some q ∧ b'.ngp[i]? = some q) ∧
      (b.dt[i]? = some t ∧ b'.dt[i]? = some t) ∧ (b.euclid[i]? = some e ∧ b'.euclid[i]? = some e) := by
    intro i hi
    obtain ⟨a, l, m, w, t, e1, e2, e3, e4, e5, e6, e7, e8, e9, e10, e11⟩ := hrec.entry i hi
    obtain ⟨a', l', m', w', t', f1, f2, f3, f4, f5, f6, f7, f8, f9, f10, f11⟩ := hrec'.entry i hi
    rw [e1] at f1
    obtain rfl := Option.some.inj f1
    rw [e2] at f2
    obtain rfl := Except.ok.inj f2
    rw [e5] at f5
    obtain rfl := Option.some.inj f5
    obtain ⟨rfl, rfl⟩ := estimate_unique hb e4 f4
    exact ⟨m', w', t, _, _, ⟨e6, f6⟩, ⟨e7, f7⟩, ⟨e8, f8⟩, ⟨e9, f9⟩, ⟨e10, f10⟩, ⟨e11, f11⟩⟩
  have k1 : b'.n = b.n := list_ext_of hrec.ln hrec'.ln fun i hi => by
    obtain ⟨m, w, t, q, e, h1, -⟩ := key i hi; exact ⟨_, h1⟩
  have k2 : b'.v = b.v := list_ext_of hrec.lv hrec'.lv fun i hi => by
    obtain ⟨m, w, t, q, e, -, h1, -⟩ := key i hi; exact ⟨_, h1⟩
  have k3 : b'.s = b.s := list_ext_of hrec.ls hrec'.ls fun i hi => by
    obtain ⟨m, w, t, q, e, -, -, h1, -⟩ := key i hi; exact ⟨_, h1⟩
  have k4 : b'.ngp = b.ngp := list_ext_of hrec.lg hrec'.lg fun i hi => by
    obtain ⟨m, w, t, q, e, -, -, -, h1, -⟩ := key i hi; exact ⟨_, h1⟩
  have k5 : b'.dt = b.dt := list_ext_of hrec.ldt hrec'.ldt fun i hi => by
    obtain ⟨m, w, t, q, e, -, -, -, -, h1, -⟩ := key i hi; exact ⟨_, h1⟩
  have k6 : b'.euclid = b.euclid := list_ext_of hrec.le hrec'.le fun i hi => by
    obtain ⟨m, w, t, q, e, -, -, -, -, -, h1⟩ := key i hi; exact ⟨_, h1⟩
  rw [hfix] at hb1
  rw [hfix'] at hb1'
  rw [hb1'] at k1 k2 k3 k4 k5 k6
  rw [hb1] at k1 k2 k3 k4 k5 k6
  dsimp only at k1 k2 k3 k4 k5 k6
  rw [hb1', hb1]
  dsimp only
  rw [k1, k2, k3, k4, k5, k6]

end Kinisi
