import Verif.Model.Observables

/-!
# What is assumed of scipy and pyblock when a run is claimed to succeed
-/

namespace Kinisi.Spec
variable {K G : Type}

/-- The external statistics do their job for the chosen options: `normaltest` accepts samples of at least eight values (scipy raises
below that), at least eight resamples are asked for, and `pyblock` accepts series of at least two values. -/
structure StatisticsRun (o : Oracle K G) (opt : BootOpts K) : Prop where
  normal : opt.bootstrap = true → 8 ≤ opt.nResamples ∧ ∀ l : List K, 8 ≤ l.length → ∃ p, o.normaltest l = .ok p
  block : opt.block = true → ∀ l : List K, 2 ≤ l.length → ∃ r, o.reblock l = .ok r

theorem StatisticsRun.off {o : Oracle K G} {opt : BootOpts K} (hb : opt.bootstrap = false) (hk : opt.block = false) : StatisticsRun o opt :=
  ⟨fun h => (by simp [hb] at h), fun h => (by simp [hk] at h)⟩

end Kinisi.Spec
