import Verif.Model.Persist

/-!
# Specification of saving and loading
-/

namespace Kinisi

variable {K : Type}

/-- `v'` is the value `v` after a round trip through a file: the same data, strings as bytes, integers and booleans as numpy
scalars, lists in the same order with the same elements, dictionaries with the same keys (in any order). -/
inductive Comes : Val K → Val K → Prop
  | arr (a : Nd K) : Comes (.arr a) (.arr a)
  | int (z : ℤ) : Comes (.int z) (.npInt z)
  | bool (b : Bool) : Comes (.bool b) (.npBool b)
  | float (x : Option K) : Comes (.float x) (.float x)
  | str (s : Str) : Comes (.str s) (.bytes s)
  | bytes (s : Str) : Comes (.bytes s) (.bytes s)
  | null : Comes .null .null
  | list (l l' : List (Val K)) (h : List.Forall₂ Comes l l') : Comes (.list l) (.list l')
  | dict (e e' : List (Str × Val K)) (hn : (e'.map Prod.fst).Nodup)
      (hk : ∀ k, (e'.lookup k).isSome = (e.lookup k).isSome)
      (hv : ∀ k v v', e.lookup k = some v → e'.lookup k = some v' → Comes v v') : Comes (.dict e) (.dict e')

/-- A name that HDF5 takes as one path component. -/
def GoodKey (k : Str) : Prop := k ≠ [] ∧ k ≠ ['.'] ∧ '/' ∉ k

instance (k : Str) : Decidable (GoodKey k) := inferInstanceAs (Decidable (_ ∧ _ ∧ _))

/-- Arrays, numbers and strings other than the text `NULL`. -/
inductive Plain : Val K → Prop
  | arr (a : Nd K) : Plain (.arr a)
  | int (z : ℤ) : Plain (.int z)
  | bool (b : Bool) : Plain (.bool b)
  | float (x : Option K) : Plain (.float x)
  | str (s : Str) (h : s ≠ k! "NULL") : Plain (.str s)
  | bytes (s : Str) (h : s ≠ k! "NULL") : Plain (.bytes s)

/-- A non-empty dictionary with distinct proper names whose values are plain or `None`. -/
def Flat (e : List (Str × Val K)) : Prop :=
  e ≠ [] ∧ (e.map Prod.fst).Nodup ∧ ∀ x ∈ e, GoodKey x.1 ∧ (Plain x.2 ∨ x.2 = .null)

/-- Documents with nesting depth at most `n`: plain values, `None`, non-empty lists of plain values and flat dictionaries, and
non-empty dictionaries of documents whose (distinct, proper) keys do not begin with `list`. -/
inductive Document : ℕ → Val K → Prop
  | plain (n : ℕ) (v : Val K) (h : Plain v) : Document n v
  | null (n : ℕ) : Document n .null
  | list (n : ℕ) (l : List (Val K)) (h0 : l ≠ []) (h : ∀ v ∈ l, Plain v ∨ ∃ e, v = .dict e ∧ Flat e) :
      Document (n + 1) (.list l)
  | dict (n : ℕ) (e : List (Str × Val K)) (h0 : e ≠ []) (hn : (e.map Prod.fst).Nodup)
      (hk : ∀ x ∈ e, GoodKey x.1 ∧ ¬ k! "list" <+: x.1) (h : ∀ x ∈ e, Document n x.2) : Document (n + 1) (.dict e)

/-- What can be saved: a dictionary of documents with distinct proper keys. -/
def SaveDoc (n : ℕ) (e : List (Str × Val K)) : Prop :=
  (e.map Prod.fst).Nodup ∧ (∀ x ∈ e, GoodKey x.1) ∧ ∀ x ∈ e, Document n x.2

end Kinisi
