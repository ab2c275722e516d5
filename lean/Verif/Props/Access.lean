import Verif.Model.Access

/-!
# Property theorems: the documented properties can be read (C100)
-/

namespace Kinisi

/-- What any object has and what none has. -/
theorem hasAttrs_inv {p : List String} (h : HasAttrs p) : (∀ a ∈ initAttrs, a ∈ p) ∧ "_n_i" ∉ p := by
  induction h with
  | init => exact ⟨fun a h => h, by decide⟩
  | @call p l m h hl ih =>
    refine ⟨fun a ha => List.mem_append_left _ (ih.1 a ha), fun hmem => ?_⟩
    rcases List.mem_append.1 hmem with h1 | h1
    · exact ih.2 h1
    · have h2 := hl.subset h1
      revert h2
      cases m <;> decide

/-- **All documented properties but one can be read** at any time in the life of an object, also after calls that raised, and so can everything the analyzers read. -/
theorem C100_readable_partial {p : List String} (h : HasAttrs p) :
    (∀ q ∈ bootProps, q.1 ≠ "n_i" → readName p q.1 = .ok q.2) ∧ ∀ name ∈ analyzerReads, ∃ a, readName p name = .ok a := by
  have h1 := (hasAttrs_inv h).1
  constructor
  · intro q hq hne
    have key : ∀ q ∈ bootProps, q.1 ≠ "n_i" → bootProps.lookup q.1 = some q.2 ∧ q.2 ∈ initAttrs := by decide
    obtain ⟨h2, h3⟩ := key q hq hne
    unfold readName
    rw [h2]
    exact if_pos (h1 _ h3)
  · intro name hn
    have key : ∀ name ∈ analyzerReads, (bootProps.lookup name).getD name ∈ initAttrs := by decide
    exact ⟨_, if_pos (h1 _ (key name hn))⟩

/-- A new object: `n` can be read although nothing has been computed. -/
example : readName initAttrs "n" = .ok "_n" := (C100_readable_partial .init).1 ("n", "_n") (by decide) (by decide)

/-- **The number of independent trajectories cannot be read**: the property `n_i` raises an AttributeError for every object, whatever was done with it. -/
theorem C100_violated_n_i {p : List String} (h : HasAttrs p) : ("n_i", "_n_i") ∈ bootProps ∧ readName p "n_i" = .error .attributeError := by
  refine ⟨by decide, ?_⟩
  unfold readName
  have h2 : (bootProps.lookup "n_i").getD "n_i" = "_n_i" := by decide
  rw [h2]
  exact if_neg (hasAttrs_inv h).2

/-- A diffusion analysis whose fit raised within `generate_covariance_matrix`. -/
example : HasAttrs ((initAttrs ++ loopAttrs) ++ ["_start_dt", "_model", "_cond_max", "_model_v"]) :=
  .call .diffusion (.call .loop .init (List.Sublist.refl _)) (by decide)

example : readName (initAttrs ++ loopAttrs) "n" = .ok "_n" := by decide

end Kinisi
