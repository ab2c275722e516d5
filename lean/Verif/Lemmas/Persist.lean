import Verif.Spec.Persist
import Verif.Lemmas.Analyzer
import Mathlib.Data.Nat.Digits.Lemmas

/-!
# Lemmas on paths, files and the two recursive functions
-/

set_option linter.unusedSectionVars false
set_option linter.unusedVariables false

namespace Kinisi

variable {K : Type}

/-! ## Paths -/

theorem compsAux_slash (a b : Str) : ∀ acc, compsAux acc (a ++ '/' :: b) = compsAux acc a ++ compsAux [] b := by
  induction a with
  | nil => intro acc; simp [compsAux]
  | cons c a ih =>
    intro acc
    simp only [List.cons_append, compsAux]
    by_cases hc : c = '/'
    · rw [if_pos hc, if_pos hc, ih, List.append_assoc]
    · rw [if_neg hc, if_neg hc, ih]

theorem comps_slash (a b : Str) : comps (a ++ '/' :: b) = comps a ++ comps b := compsAux_slash a b []

theorem compsAux_noslash (k : Str) (h : '/' ∉ k) : ∀ acc, compsAux acc k = component (acc ++ k) := by
  induction k with
  | nil => intro acc; simp [compsAux]
  | cons c k ih =>
    intro acc
    have hc : c ≠ '/' := fun e => h (by simp [e])
    simp only [compsAux, if_neg hc]
    rw [ih (fun e => h (by simp [e]))]
    simp

theorem comps_key {k : Str} (h : GoodKey k) : comps k = [k] := by
  obtain ⟨h1, h2, h3⟩ := h
  unfold comps
  rw [compsAux_noslash k h3]
  simp [component, h1, h2]

theorem comps_nil : comps [] = [] := rfl

theorem comps_dir (p : Str) : comps (p ++ ['/']) = comps p := by rw [comps_slash, comps_nil, List.append_nil]

theorem comps_dir_key (p : Str) {k : Str} (h : GoodKey k) : comps (p ++ ['/'] ++ k) = comps (p ++ ['/']) ++ [k] := by
  rw [List.append_assoc, List.singleton_append, comps_slash, comps_key h, comps_dir]

/-! ## `strip` and `under` -/

theorem strip_append (p q r : List Str) : strip (p ++ q) r = (strip p r).bind (strip q) := by
  induction p generalizing r with
  | nil => simp [strip]
  | cons a p ih =>
    cases r with
    | nil => simp [strip]
    | cons b r =>
      simp only [List.cons_append, strip]
      by_cases h : a = b
      · rw [if_pos h, if_pos h, ih]
      · rw [if_neg h, if_neg h]; rfl

theorem strip_self (p q : List Str) : strip p (p ++ q) = some q := by
  induction p with
  | nil => rfl
  | cons a p ih => simp [strip, ih]

theorem strip_some {p q r : List Str} (h : strip p q = some r) : q = p ++ r := by
  induction p generalizing q with
  | nil => simp [strip] at h; simp [h]
  | cons a p ih =>
    cases q with
    | nil => simp [strip] at h
    | cons b q =>
      simp only [strip] at h
      by_cases hab : a = b
      · rw [if_pos hab] at h; rw [ih h, hab]; rfl
      · rw [if_neg hab] at h; cases h

theorem strip_append_left (p q r : List Str) : strip (p ++ q) (p ++ r) = strip q r := by
  rw [strip_append, strip_self]; rfl

theorem under_append (f : File K) (p q : List Str) : under f (p ++ q) = under (under f p) q := by
  unfold under
  rw [List.filterMap_filterMap]
  congr 1
  funext e
  rw [strip_append]
  cases strip p e.1 <;> rfl

theorem under_nil (f : File K) : under f [] = f := by
  unfold under
  simp [strip]

theorem under_append_file (f g : File K) (p : List Str) : under (f ++ g) p = under f p ++ under g p := by
  simp [under]

theorem under_map_self (f : File K) (p : List Str) : under (f.map fun e => (p ++ e.1, e.2)) p = f := by
  unfold under
  rw [List.filterMap_map]
  conv_rhs => rw [← List.filterMap_some (l := f)]
  congr 1
  funext e
  simp [strip_self]

theorem under_map_cons (f : File K) (k k' : Str) :
    under (f.map fun e => (k :: e.1, e.2)) [k'] = if k' = k then f else [] := by
  by_cases h : k' = k
  · subst h
    rw [if_pos rfl]
    exact under_map_self f [k']
  · rw [if_neg h]
    unfold under
    rw [List.filterMap_map, List.filterMap_eq_nil_iff]
    intro e he
    simp [strip, h]

theorem mem_under {f : File K} {p : List Str} {x : List Str × Stored K} : x ∈ under f p ↔ (p ++ x.1, x.2) ∈ f := by
  unfold under
  rw [List.mem_filterMap]
  constructor
  · rintro ⟨e, he, h⟩
    cases hs : strip p e.1 with
    | none => rw [hs] at h; cases h
    | some r =>
      rw [hs] at h
      obtain rfl := Option.some.inj h
      rw [← strip_some hs]
      exact he
  · intro h
    exact ⟨_, h, by simp [strip_self]⟩

theorem childNames_nodup (u : File K) : (childNames u).Nodup := by
  unfold childNames
  exact (List.perm_insertionSort _ _).nodup_iff.2 (List.nodup_dedup _)

theorem mem_childNames {u : File K} {k : Str} : k ∈ childNames u ↔ ∃ p s, (k :: p, s) ∈ u := by
  unfold childNames
  rw [List.mem_insertionSort, List.mem_dedup, List.mem_filterMap]
  constructor
  · rintro ⟨⟨p, s⟩, he, h⟩
    cases p with
    | nil => cases h
    | cons a p => simp at h; subst h; exact ⟨p, s, he⟩
  · rintro ⟨p, s, he⟩
    exact ⟨_, he, rfl⟩

/-! ## Decimal numbers -/

theorem digitChar_spec (d : ℕ) (h : d < 10) :
    d.digitChar.isDigit = true ∧ d.digitChar.toNat - 48 = d ∧ d.digitChar ≠ '-' ∧ d.digitChar ≠ '/' ∧ d.digitChar ≠ '.' := by
  revert d; decide

theorem digitsVal_append (s : Str) (c : Char) : ∀ acc, digitsVal acc (s ++ [c]) = (digitsVal acc s).bind fun n =>
    if c.isDigit then .ok (10 * n + (c.toNat - 48)) else .error .valueError := by
  induction s with
  | nil => intro acc; simp [digitsVal]; rfl
  | cons a s ih =>
    intro acc
    simp only [List.cons_append, digitsVal]
    by_cases ha : a.isDigit
    · rw [if_pos ha, if_pos ha, ih]
    · rw [if_neg ha, if_neg ha]; rfl

theorem digitsVal_digits (ds : List ℕ) (h : ∀ d ∈ ds, d < 10) :
    digitsVal 0 (ds.map Nat.digitChar).reverse = .ok (Nat.ofDigits 10 ds) := by
  induction ds with
  | nil => rfl
  | cons d ds ih =>
    rw [List.map_cons, List.reverse_cons, digitsVal_append, ih fun x hx => h x (by simp [hx])]
    obtain ⟨h1, h2, _⟩ := digitChar_spec d (h d (by simp))
    show (if _ then _ else _) = _
    rw [if_pos h1, h2, Nat.ofDigits_cons]
    congr 1
    omega

theorem dec_chars (n : ℕ) : dec n ≠ [] ∧ ∀ c ∈ dec n, c ≠ '-' ∧ c ≠ '/' ∧ c ≠ '.' := by
  unfold dec
  by_cases hn : n = 0
  · rw [if_pos hn]
    exact ⟨by simp, by simp⟩
  · rw [if_neg hn]
    refine ⟨by simpa using Nat.digits_ne_nil_iff_ne_zero.2 hn, ?_⟩
    intro c hc
    simp only [List.mem_reverse, List.mem_map] at hc
    obtain ⟨d, hd, rfl⟩ := hc
    obtain ⟨-, -, h3, h4, h5⟩ := digitChar_spec d (Nat.digits_lt_base (by norm_num) hd)
    exact ⟨h3, h4, h5⟩

theorem digitsVal_dec (n : ℕ) : digitsVal 0 (dec n) = .ok n := by
  unfold dec
  by_cases hn : n = 0
  · rw [if_pos hn, hn]; rfl
  · rw [if_neg hn, digitsVal_digits _ fun d hd => Nat.digits_lt_base (by norm_num) hd, Nat.ofDigits_digits]

theorem pyIntOf_dec (n : ℕ) : pyIntOf (dec n) = .ok (n : ℤ) := by
  have h1 := dec_chars n
  have h2 := digitsVal_dec n
  cases h : dec n with
  | nil => exact absurd h h1.1
  | cons c s =>
    rw [h] at h1 h2
    have hc : c ≠ '-' := (h1.2 c (by simp)).1
    unfold pyIntOf
    split
    · rename_i heq; cases heq
    · rename_i heq; rw [List.cons.injEq] at heq; exact absurd heq.1 hc
    · rw [h2]; rfl

theorem dec_inj {m n : ℕ} (h : dec m = dec n) : m = n := by
  have h1 := pyIntOf_dec m
  rw [h, pyIntOf_dec n] at h1
  exact_mod_cast (Except.ok.inj h1).symm

theorem decZ_nat (n : ℕ) : decZ (n : ℤ) = dec n := by
  unfold decZ
  rw [if_neg (by omega)]
  rfl

/-- Name of list element number `i`. -/
def listName (i : ℕ) : Str := listText ++ dec i

theorem listName_good (i : ℕ) : GoodKey (listName i) := by
  refine ⟨by simp [listName, listText], ?_, ?_⟩
  · intro h
    have := congrArg List.length h
    simp [listName, listText] at this
  · intro h
    rcases List.mem_append.1 h with h | h
    · revert h; decide
    · exact ((dec_chars i).2 _ h).2.1 rfl

theorem listName_inj {i j : ℕ} (h : listName i = listName j) : i = j :=
  dec_inj (List.append_cancel_left h)

theorem listName_drop (i : ℕ) : (listName i).drop 4 = dec i := by
  show (listText ++ dec i).drop listText.length = dec i
  exact List.drop_left

theorem listName_take (i : ℕ) : (listName i).take 4 = listText := by
  show (listText ++ dec i).take listText.length = listText
  exact List.take_left

/-! ## The assignments -/

theorem mem_andThen {a b : Ops K} {x : Str × Stored K} (h : x ∈ (a.andThen b).1) : x ∈ a.1 ∨ x ∈ b.1 := by
  unfold Ops.andThen at h
  cases ha : a.2 with
  | some e => rw [ha] at h; exact Or.inl h
  | none => rw [ha] at h; exact List.mem_append.1 h

mutual
theorem dictOps_prefix (P : Str) : ∀ (e : List (Str × Val K)), ∀ x ∈ (dictOps P e).1, ∃ t, x.1 = P ++ t
  | [], x, hx => by simp [dictOps] at hx
  | (k, v) :: e, x, hx => by
    rw [dictOps] at hx
    rcases mem_andThen hx with h | h
    · rcases valOps_prefix P k v x h with h | ⟨t, h⟩
      · exact ⟨k, h⟩
      · exact ⟨k ++ '/' :: t, by rw [h, List.append_assoc]⟩
    · exact dictOps_prefix P e x h

theorem valOps_prefix (P k : Str) : ∀ (v : Val K), ∀ x ∈ (valOps P k v).1, x.1 = P ++ k ∨ ∃ t, x.1 = P ++ k ++ '/' :: t
  | .list l, x, hx => by
    rw [valOps] at hx
    exact Or.inr (listOps_prefix P k 0 l x hx)
  | .dict d, x, hx => by
    rw [valOps] at hx
    obtain ⟨t, ht⟩ := dictOps_prefix (P ++ k ++ ['/']) d x hx
    exact Or.inr ⟨t, by rw [ht, List.append_assoc (P ++ k)]; rfl⟩
  | .null, x, hx => by simp [valOps] at hx; simp [hx]
  | .arr a, x, hx => by simp [valOps] at hx; simp [hx]
  | .int z, x, hx => by simp [valOps] at hx; simp [hx]
  | .bool b, x, hx => by simp [valOps] at hx; simp [hx]
  | .float y, x, hx => by simp [valOps] at hx; simp [hx]
  | .str s, x, hx => by simp [valOps] at hx; simp [hx]
  | .bytes s, x, hx => by simp [valOps] at hx; simp [hx]
  | .npInt _, x, hx => by simp [valOps] at hx
  | .npBool _, x, hx => by simp [valOps] at hx
  | .other, x, hx => by simp [valOps] at hx

theorem listOps_prefix (P k : Str) : ∀ (i : ℕ) (l : List (Val K)), ∀ x ∈ (listOps P k i l).1, ∃ t, x.1 = P ++ k ++ '/' :: t
  | i, [], x, hx => by simp [listOps] at hx
  | i, v :: l, x, hx => by
    rw [listOps] at hx
    rcases mem_andThen hx with h | h
    · obtain ⟨t, ht⟩ := elemOps_prefix (P ++ k ++ '/' :: listText ++ dec i) v x h
      exact ⟨listText ++ dec i ++ t, by rw [ht]; simp⟩
    · exact listOps_prefix P k (i + 1) l x h

theorem elemOps_prefix (p : Str) : ∀ (v : Val K), ∀ x ∈ (elemOps p v).1, ∃ t, x.1 = p ++ t
  | .dict d, x, hx => by
    rw [elemOps] at hx
    obtain ⟨t, ht⟩ := dictOps_prefix (p ++ ['/']) d x hx
    exact ⟨'/' :: t, by rw [ht, List.append_assoc]; rfl⟩
  | .arr a, x, hx => by simp [elemOps] at hx; exact ⟨[], by simp [hx]⟩
  | .int z, x, hx => by simp [elemOps] at hx; exact ⟨[], by simp [hx]⟩
  | .bool b, x, hx => by simp [elemOps] at hx; exact ⟨[], by simp [hx]⟩
  | .float y, x, hx => by simp [elemOps] at hx; exact ⟨[], by simp [hx]⟩
  | .str s, x, hx => by simp [elemOps] at hx; exact ⟨[], by simp [hx]⟩
  | .bytes s, x, hx => by simp [elemOps] at hx; exact ⟨[], by simp [hx]⟩
  | .null, x, hx => by simp [elemOps] at hx
  | .list _, x, hx => by simp [elemOps] at hx
  | .npInt _, x, hx => by simp [elemOps] at hx
  | .npBool _, x, hx => by simp [elemOps] at hx
  | .other, x, hx => by simp [elemOps] at hx
end

/-- All assignments for the item `k` are at or below this name. -/
theorem valOps_comps (p : Str) {k : Str} (hk : GoodKey k) (v : Val K) (x : Str × Stored K)
    (hx : x ∈ (valOps (p ++ ['/']) k v).1) : ∃ r, comps x.1 = comps p ++ k :: r := by
  rcases valOps_prefix _ k v x hx with h | ⟨t, h⟩
  · exact ⟨[], by rw [h, comps_dir_key p hk, comps_dir]⟩
  · exact ⟨comps t, by rw [h, comps_slash, comps_dir_key p hk, comps_dir]; simp⟩

/-- The file that consists of the given assignments. -/
def toFile (ops : List (Str × Stored K)) : File K := ops.map fun x => (comps x.1, x.2)

/-- A file below a name. -/
def below (k : Str) (f : File K) : File K := f.map fun x => (k :: x.1, x.2)

/-- A file below a path. -/
def belowPath (p : List Str) (f : File K) : File K := f.map fun x => (p ++ x.1, x.2)

mutual
/-- The datasets of a dictionary, paths relative to its group. -/
def fEntries : List (Str × Val K) → File K
  | [] => []
  | (k, v) :: e => below k (fVal v) ++ fEntries e

def fVal : Val K → File K
  | .list l => fList 0 l
  | .dict d => fEntries d
  | .null => [([], .str nullText)]
  | .arr a => [([], .arr a)]
  | .int z => [([], .int z)]
  | .bool b => [([], .bool b)]
  | .float x => [([], .float x)]
  | .str s => [([], .str s)]
  | .bytes s => [([], .bytes s)]
  | .npInt _ => []
  | .npBool _ => []
  | .other => []

def fList (i : ℕ) : List (Val K) → File K
  | [] => []
  | v :: l => below (listName i) (fElem v) ++ fList (i + 1) l

def fElem : Val K → File K
  | .dict d => fEntries d
  | .arr a => [([], .arr a)]
  | .int z => [([], .int z)]
  | .bool b => [([], .bool b)]
  | .float x => [([], .float x)]
  | .str s => [([], .str s)]
  | .bytes s => [([], .bytes s)]
  | .list _ => []
  | .null => []
  | .npInt _ => []
  | .npBool _ => []
  | .other => []
end

theorem belowPath_below (p : List Str) (k : Str) (f : File K) : belowPath p (below k f) = belowPath (p ++ [k]) f := by
  simp [belowPath, below]

theorem belowPath_append (p : List Str) (f g : File K) : belowPath p (f ++ g) = belowPath p f ++ belowPath p g := by
  simp [belowPath]

/-- The assignments `a` all happen and make the file `f`. -/
def Makes (a : Ops K) (f : File K) : Prop := a.2 = none ∧ toFile a.1 = f

theorem Makes.andThen {a b : Ops K} {f g : File K} (ha : Makes a f) (hb : Makes b g) : Makes (a.andThen b) (f ++ g) := by
  obtain ⟨ha1, ha2⟩ := ha
  obtain ⟨hb1, hb2⟩ := hb
  unfold Ops.andThen
  rw [ha1]
  exact ⟨hb1, by rw [← ha2, ← hb2]; simp [toFile]⟩

theorem plain_makes {v : Val K} (h : Plain v) (p k : Str) (hk : GoodKey k) :
    Makes (valOps (p ++ ['/']) k v) (belowPath (comps p ++ [k]) (fVal v)) := by
  cases h <;> (rw [valOps, fVal]; refine ⟨rfl, ?_⟩; simp only [toFile, belowPath, List.map, comps_dir_key p hk, comps_dir, List.append_nil])

theorem null_makes (p k : Str) (hk : GoodKey k) :
    Makes (valOps (K := K) (p ++ ['/']) k .null) (belowPath (comps p ++ [k]) (fVal .null)) := by
  rw [valOps, fVal]; refine ⟨rfl, ?_⟩; simp only [toFile, belowPath, List.map, comps_dir_key p hk, comps_dir, List.append_nil]

theorem entries_makes (p : Str) (e : List (Str × Val K))
    (h : ∀ x ∈ e, Makes (valOps (p ++ ['/']) x.1 x.2) (belowPath (comps p ++ [x.1]) (fVal x.2))) :
    Makes (dictOps (p ++ ['/']) e) (belowPath (comps p) (fEntries e)) := by
  induction e with
  | nil => rw [dictOps, fEntries]; exact ⟨rfl, rfl⟩
  | cons x e ih =>
    obtain ⟨k, v⟩ := x
    rw [dictOps, fEntries, belowPath_append, belowPath_below]
    exact (h (k, v) (by simp)).andThen (ih fun y hy => h y (by simp [hy]))

theorem flat_makes (p : Str) {e : List (Str × Val K)} (h : Flat e) :
    Makes (dictOps (p ++ ['/']) e) (belowPath (comps p) (fEntries e)) := by
  refine entries_makes p e fun x hx => ?_
  obtain ⟨hk, hv⟩ := h.2.2 x hx
  rcases hv with hv | hv
  · exact plain_makes hv p x.1 hk
  · rw [hv]; exact null_makes p x.1 hk

theorem elem_makes (q : Str) {v : Val K} (h : Plain v ∨ ∃ e, v = .dict e ∧ Flat e) :
    Makes (elemOps q v) (belowPath (comps q) (fElem v)) := by
  rcases h with h | ⟨e, rfl, he⟩
  · cases h <;> (rw [elemOps, fElem]; refine ⟨rfl, ?_⟩; simp only [toFile, belowPath, List.map, List.append_nil])
  · rw [elemOps, fElem]
    exact flat_makes q he

theorem list_makes (p k : Str) (hk : GoodKey k) (l : List (Val K)) (h : ∀ v ∈ l, Plain v ∨ ∃ e, v = .dict e ∧ Flat e) :
    ∀ i, Makes (listOps (p ++ ['/']) k i l) (belowPath (comps p ++ [k]) (fList i l)) := by
  induction l with
  | nil => intro i; rw [listOps, fList]; exact ⟨rfl, rfl⟩
  | cons v l ih =>
    intro i
    rw [listOps, fList, belowPath_append, belowPath_below]
    refine Makes.andThen ?_ (ih (fun y hy => h y (by simp [hy])) (i + 1))
    have h1 := elem_makes (p ++ ['/'] ++ k ++ '/' :: listText ++ dec i) (h v (by simp))
    have h2 : comps (p ++ ['/'] ++ k ++ '/' :: listText ++ dec i) = comps p ++ [k] ++ [listName i] := by
      have : p ++ ['/'] ++ k ++ '/' :: listText ++ dec i = p ++ ['/'] ++ k ++ '/' :: (listName i) := by simp [listName]
      rw [this, comps_slash, comps_key (listName_good i), comps_dir_key p hk, comps_dir]
    rw [h2] at h1
    exact h1

theorem document_makes {n : ℕ} {v : Val K} (h : Document n v) : ∀ (p k : Str), GoodKey k →
    Makes (valOps (p ++ ['/']) k v) (belowPath (comps p ++ [k]) (fVal v)) := by
  induction h with
  | plain n v h => exact fun p k hk => plain_makes h p k hk
  | null n => exact fun p k hk => null_makes p k hk
  | list n l h0 h => intro p k hk; rw [valOps, fVal]; exact list_makes p k hk l h 0
  | dict n e h0 hn hk h ih =>
    intro p k hgk
    rw [valOps, fVal]
    have h1 := entries_makes (p ++ ['/'] ++ k) e fun x hx => ih x hx (p ++ ['/'] ++ k) x.1 (hk x hx).1
    rw [comps_dir_key p hgk, comps_dir] at h1
    exact h1

theorem saveDoc_makes {n : ℕ} {e : List (Str × Val K)} (h : SaveDoc n e) : Makes (dictOps ['/'] e) (fEntries e) := by
  have h1 := entries_makes [] e fun x hx => document_makes (h.2.2 x hx) [] x.1 (h.2.1 x hx)
  rw [comps_nil] at h1
  simpa [belowPath] using h1

/-! ## Writing -/

/-- No dataset is at or below the path of another. -/
def Apart (a b : List Str × Stored K) : Prop := strip a.1 b.1 = none ∧ strip b.1 a.1 = none

theorem nodeAt_none {f : File K} {p : List Str} (hp : p ≠ []) (h : ∀ x ∈ f, strip p x.1 = none) : nodeAt f p = none := by
  have hu : under f p = [] := by
    unfold under
    rw [List.filterMap_eq_nil_iff]
    intro x hx
    rw [h x hx]; rfl
  unfold nodeAt
  rw [hu]
  simp [hp]

theorem writeData_ok {f : File K} {path : Str} {s : Stored K} (hp : comps path ≠ [])
    (h : ∀ x ∈ f, Apart x (comps path, s)) : writeData f path s = .ok (f ++ [(comps path, s)]) := by
  unfold writeData
  rw [nodeAt_none hp fun x hx => (h x hx).2]
  have : (f.any fun e => (strip e.1 (comps path)).isSome) = false := by
    rw [List.any_eq_false]
    intro x hx
    rw [(h x hx).1]
    simp
  rw [this]
  simp

theorem hdfWriteAll_ok (ops : List (Str × Stored K)) : ∀ f : File K, (∀ x ∈ toFile ops, x.1 ≠ []) → (toFile ops).Pairwise Apart →
    (∀ x ∈ f, ∀ y ∈ toFile ops, Apart x y) → hdfWriteAll f ops = (f ++ toFile ops, none) := by
  induction ops with
  | nil => intro f _ _ _; simp [hdfWriteAll, toFile]
  | cons o ops ih =>
    intro f h0 hp hf
    obtain ⟨p, s⟩ := o
    have e1 : toFile ((p, s) :: ops) = (comps p, s) :: toFile ops := rfl
    rw [e1] at h0 hp hf ⊢
    rw [List.pairwise_cons] at hp
    rw [hdfWriteAll, writeData_ok (h0 (comps p, s) (by simp)) fun x hx => hf x hx _ (by simp)]
    dsimp only
    rw [ih (f ++ [(comps p, s)]) (fun x hx => h0 x (by simp [hx])) hp.2 ?_]
    · simp
    · intro x hx y hy
      rcases List.mem_append.1 hx with hx | hx
      · exact hf x hx y (by simp [hy])
      · rw [List.mem_singleton] at hx; subst hx; exact hp.1 y hy

theorem writeData_inv {f g : File K} {path : Str} {s : Stored K} (h : writeData f path s = .ok g) :
    g = f ++ [(comps path, s)] := by
  unfold writeData at h
  split at h
  · cases h
  · split at h
    · cases h
    · exact (Except.ok.inj h).symm

/-- The file holds an initial part of the assignments, all of them if there was no exception. -/
theorem hdfWriteAll_inv (ops : List (Str × Stored K)) : ∀ f : File K, ∃ m ≤ ops.length,
    (hdfWriteAll f ops).1 = f ++ toFile (ops.take m) ∧ ((hdfWriteAll f ops).2 = none → m = ops.length) := by
  induction ops with
  | nil => intro f; exact ⟨0, by simp, by simp [hdfWriteAll, toFile], by simp⟩
  | cons o ops ih =>
    intro f
    obtain ⟨p, s⟩ := o
    rw [hdfWriteAll]
    cases hw : writeData f p s with
    | error e => exact ⟨0, by simp, by simp [toFile], by simp⟩
    | ok f1 =>
      obtain ⟨m, hm, h1, h2⟩ := ih f1
      rw [writeData_inv hw] at h1 h2 ⊢
      refine ⟨m + 1, by simpa using hm, ?_, fun h => by simpa using h2 h⟩
      dsimp only
      rw [h1]
      simp [toFile]

theorem apart_below {k : Str} {x y : List Str × Stored K} (h : Apart x y) :
    Apart (k :: x.1, x.2) (k :: y.1, y.2) := by
  unfold Apart at *
  simpa [strip] using h

theorem pairwise_below {k : Str} {f : File K} (h : f.Pairwise Apart) : (below k f).Pairwise Apart := by
  unfold below
  rw [List.pairwise_map]
  exact h.imp fun h => apart_below h

theorem apart_head {k k' : Str} {p q : List Str} {s t : Stored K} (h : k ≠ k') : Apart (k :: p, s) (k' :: q, t) := by
  unfold Apart
  simp [strip, h, Ne.symm h]

theorem mem_fEntries {e : List (Str × Val K)} {x : List Str × Stored K} (h : x ∈ fEntries e) :
    ∃ y ∈ e, ∃ r, (r, x.2) ∈ fVal y.2 ∧ x.1 = y.1 :: r := by
  induction e with
  | nil => rw [fEntries] at h; cases h
  | cons y e ih =>
    obtain ⟨k, v⟩ := y
    rw [fEntries] at h
    rcases List.mem_append.1 h with h | h
    · simp only [below, List.mem_map] at h
      obtain ⟨z, hz, rfl⟩ := h
      exact ⟨(k, v), by simp, z.1, hz, rfl⟩
    · obtain ⟨y, hy, h⟩ := ih h
      exact ⟨y, by simp [hy], h⟩

theorem fEntries_mem {e : List (Str × Val K)} {y : Str × Val K} (hy : y ∈ e) {r : List Str} {s : Stored K}
    (h : (r, s) ∈ fVal y.2) : (y.1 :: r, s) ∈ fEntries e := by
  induction e with
  | nil => cases hy
  | cons z e ih =>
    obtain ⟨k, v⟩ := z
    rw [fEntries]
    rcases List.mem_cons.1 hy with rfl | hy
    · exact List.mem_append_left _ (List.mem_map.2 ⟨(r, s), h, rfl⟩)
    · exact List.mem_append_right _ (ih hy)

theorem pairwise_fEntries {e : List (Str × Val K)} (hn : (e.map Prod.fst).Nodup)
    (h : ∀ x ∈ e, (fVal x.2).Pairwise Apart) : (fEntries e).Pairwise Apart := by
  induction e with
  | nil => rw [fEntries]; exact List.Pairwise.nil
  | cons x e ih =>
    obtain ⟨k, v⟩ := x
    rw [fEntries, List.pairwise_append]
    rw [List.map_cons, List.nodup_cons] at hn
    refine ⟨pairwise_below (h (k, v) (by simp)), ih hn.2 fun y hy => h y (by simp [hy]), ?_⟩
    intro a ha b hb
    simp only [below, List.mem_map] at ha
    obtain ⟨z, hz, rfl⟩ := ha
    obtain ⟨y, hy, r, hr, hb1⟩ := mem_fEntries hb
    obtain ⟨b1, b2⟩ := b
    simp only at hb1
    subst hb1
    refine apart_head ?_
    rintro rfl
    exact hn.1 (List.mem_map.2 ⟨y, hy, rfl⟩)

theorem pairwise_plain {v : Val K} (h : Plain v ∨ v = .null) : (fVal v).Pairwise Apart := by
  rcases h with h | rfl
  · cases h <;> (rw [fVal]; exact List.pairwise_singleton _ _)
  · rw [fVal]; exact List.pairwise_singleton _ _

theorem pairwise_elem {v : Val K} (h : Plain v ∨ ∃ e, v = .dict e ∧ Flat e) : (fElem v).Pairwise Apart := by
  rcases h with h | ⟨e, rfl, he⟩
  · cases h <;> (rw [fElem]; exact List.pairwise_singleton _ _)
  · rw [fElem]
    exact pairwise_fEntries he.2.1 fun x hx => pairwise_plain (he.2.2 x hx).2

theorem mem_fList {l : List (Val K)} {x : List Str × Stored K} : ∀ {i : ℕ}, x ∈ fList i l →
    ∃ j v r, l[j]? = some v ∧ (r, x.2) ∈ fElem v ∧ x.1 = listName (i + j) :: r := by
  induction l with
  | nil => intro i h; rw [fList] at h; cases h
  | cons v l ih =>
    intro i h
    rw [fList] at h
    rcases List.mem_append.1 h with h | h
    · simp only [below, List.mem_map] at h
      obtain ⟨z, hz, rfl⟩ := h
      exact ⟨0, v, z.1, rfl, hz, rfl⟩
    · obtain ⟨j, w, r, h1, h2, h3⟩ := ih h
      exact ⟨j + 1, w, r, by simpa using h1, h2, by rw [h3]; congr 2; omega⟩

theorem pairwise_fList {l : List (Val K)} (h : ∀ v ∈ l, (fElem v).Pairwise Apart) : ∀ i, (fList i l).Pairwise Apart := by
  induction l with
  | nil => intro i; rw [fList]; exact List.Pairwise.nil
  | cons v l ih =>
    intro i
    rw [fList, List.pairwise_append]
    refine ⟨pairwise_below (h v (by simp)), ih (fun y hy => h y (by simp [hy])) _, ?_⟩
    intro a ha b hb
    simp only [below, List.mem_map] at ha
    obtain ⟨z, hz, rfl⟩ := ha
    obtain ⟨j, w, r, h1, h2, h3⟩ := mem_fList hb
    obtain ⟨b1, b2⟩ := b
    simp only at h3
    subst h3
    refine apart_head fun e => ?_
    have := listName_inj e
    omega

theorem pairwise_doc {n : ℕ} {v : Val K} (h : Document n v) : (fVal v).Pairwise Apart := by
  induction h with
  | plain n v h => exact pairwise_plain (Or.inl h)
  | null n => exact pairwise_plain (Or.inr rfl)
  | list n l h0 h => rw [fVal]; exact pairwise_fList (fun v hv => pairwise_elem (h v hv)) 0
  | dict n e h0 hn hk h ih => rw [fVal]; exact pairwise_fEntries hn ih

theorem saveDoc_write {n : ℕ} {e : List (Str × Val K)} (h : SaveDoc n e) : writeDict e = (fEntries e, .ok ()) := by
  obtain ⟨h1, h2⟩ := saveDoc_makes h
  have hw := hdfWriteAll_ok (dictOps ['/'] e).1 [] (by
      rw [h2]; intro x hx; obtain ⟨y, _, r, _, hr⟩ := mem_fEntries hx; simp [hr])
    (by rw [h2]; exact pairwise_fEntries h.1 fun x hx => pairwise_doc (h.2.2 x hx)) (by simp)
  rw [h2, List.nil_append] at hw
  unfold writeDict
  rw [hw, h1]

/-! ## Reading -/

theorem under_fEntries {e : List (Str × Val K)} (hn : (e.map Prod.fst).Nodup) {y : Str × Val K} (hy : y ∈ e) :
    under (fEntries e) [y.1] = fVal y.2 := by
  induction e with
  | nil => cases hy
  | cons x e ih =>
    obtain ⟨k, v⟩ := x
    rw [List.map_cons, List.nodup_cons] at hn
    rw [fEntries, under_append_file, below, under_map_cons]
    rcases List.mem_cons.1 hy with rfl | hy'
    · rw [if_pos rfl]
      have : under (fEntries e) [k] = [] := by
        unfold under
        rw [List.filterMap_eq_nil_iff]
        intro x hx
        obtain ⟨y, hy2, r, _, hr⟩ := mem_fEntries hx
        rw [hr]
        have : k ≠ y.1 := by rintro rfl; exact hn.1 (List.mem_map.2 ⟨y, hy2, rfl⟩)
        simp [strip, this]
      rw [this, List.append_nil]
    · have : y.1 ≠ k := by rintro rfl; exact hn.1 (List.mem_map.2 ⟨y, hy', rfl⟩)
      rw [if_neg this, List.nil_append]
      exact ih hn.2 hy'

theorem under_fList {l : List (Val K)} : ∀ {i j : ℕ} {v : Val K}, l[j]? = some v → under (fList i l) [listName (i + j)] = fElem v := by
  induction l with
  | nil => intro i j v h; simp at h
  | cons w l ih =>
    intro i j v h
    rw [fList, under_append_file, below, under_map_cons]
    cases j with
    | zero =>
      simp at h; subst h
      rw [if_pos (by simp)]
      have : under (fList (i + 1) l) [listName (i + 0)] = [] := by
        unfold under
        rw [List.filterMap_eq_nil_iff]
        intro x hx
        obtain ⟨j, w, r, h1, h2, h3⟩ := mem_fList hx
        rw [h3]
        have : listName (i + 0) ≠ listName (i + 1 + j) := fun e => by have := listName_inj e; omega
        rw [strip, if_neg this]; rfl
      rw [this, List.append_nil]
    | succ j =>
      have : listName (i + (j + 1)) ≠ listName i := fun e => by have := listName_inj e; omega
      rw [if_neg this, List.nil_append]
      have h2 := ih (i := i + 1) (j := j) (v := v) (by simpa using h)
      rw [← h2]
      congr 3
      omega

theorem fVal_ne_nil {n : ℕ} {v : Val K} (h : Document n v) : fVal v ≠ [] := by
  have hel : ∀ w : Val K, Plain w ∨ w = .null → fVal w ≠ [] := by
    intro w hw
    rcases hw with hw | rfl
    · cases hw <;> (rw [fVal]; simp)
    · rw [fVal]; simp
  induction h with
  | plain n v h => exact hel v (Or.inl h)
  | null n => exact hel _ (Or.inr rfl)
  | dict n e h0 hn hk h ih =>
    rw [fVal]
    obtain ⟨x, hx⟩ := List.exists_mem_of_ne_nil _ h0
    obtain ⟨y, hy⟩ := List.exists_mem_of_ne_nil _ (ih x hx)
    exact List.ne_nil_of_mem (fEntries_mem hx (r := y.1) (s := y.2) hy)
  | list n l h0 h =>
    rw [fVal]
    cases l with
    | nil => exact absurd rfl h0
    | cons v l =>
      rw [fList]
      have hv : fElem v ≠ [] := by
        rcases h v (by simp) with hp | ⟨e, rfl, he⟩
        · cases hp <;> (rw [fElem]; simp)
        · rw [fElem]
          obtain ⟨x, hx⟩ := List.exists_mem_of_ne_nil _ he.1
          obtain ⟨y, hy⟩ := List.exists_mem_of_ne_nil _ (hel x.2 (he.2.2 x hx).2)
          exact List.ne_nil_of_mem (fEntries_mem hx (r := y.1) (s := y.2) hy)
      simp [below, hv]

theorem fElem_ne_nil {v : Val K} (h : Plain v ∨ ∃ e, v = .dict e ∧ Flat e) : fElem v ≠ [] := by
  rcases h with hp | ⟨e, rfl, he⟩
  · cases hp <;> (rw [fElem]; simp)
  · rw [fElem]
    obtain ⟨x, hx⟩ := List.exists_mem_of_ne_nil _ he.1
    have : fVal x.2 ≠ [] := by
      rcases (he.2.2 x hx).2 with hw | hw
      · exact fVal_ne_nil (Document.plain 0 _ hw)
      · rw [hw]; exact fVal_ne_nil (Document.null 0)
    obtain ⟨y, hy⟩ := List.exists_mem_of_ne_nil _ this
    exact List.ne_nil_of_mem (fEntries_mem hx (r := y.1) (s := y.2) hy)

theorem readData_plain {v : Val K} (h : Plain v) : ∃ s, fVal v = [([], s)] ∧ fElem v = [([], s)] ∧ Comes v (readData s) := by
  cases h with
  | arr a => exact ⟨.arr a, by rw [fVal], by rw [fElem], Comes.arr a⟩
  | int z => exact ⟨.int z, by rw [fVal], by rw [fElem], Comes.int z⟩
  | bool b => exact ⟨.bool b, by rw [fVal], by rw [fElem], Comes.bool b⟩
  | float x => exact ⟨.float x, by rw [fVal], by rw [fElem], Comes.float x⟩
  | str s h => exact ⟨.str s, by rw [fVal], by rw [fElem], by rw [readData, if_neg (show s ≠ nullText from h)]; exact Comes.str s⟩
  | bytes s h => exact ⟨.bytes s, by rw [fVal], by rw [fElem], by rw [readData, if_neg (show s ≠ nullText from h)]; exact Comes.bytes s⟩

theorem nodeAt_data {f : File K} {p : List Str} {s : Stored K} (h : under f p = [([], s)]) : nodeAt f p = some (.data s) := by
  unfold nodeAt
  rw [h]
  rfl

theorem lookup_none_of {u : File K} (h : ∀ x ∈ u, x.1 ≠ []) : u.lookup [] = none := by
  induction u with
  | nil => rfl
  | cons x u ih =>
    obtain ⟨p, s⟩ := x
    have hp : p ≠ [] := h (p, s) (by simp)
    cases p with
    | nil => exact absurd rfl hp
    | cons a p =>
      rw [List.lookup]
      exact ih fun y hy => h y (by simp [hy])

theorem nodeAt_group {f : File K} {p : List Str} {u : File K} (hu : under f p = u) (h : ∀ x ∈ u, x.1 ≠ []) (h0 : p = [] ∨ u ≠ []) :
    nodeAt f p = some .group := by
  unfold nodeAt
  rw [hu, lookup_none_of h]
  dsimp only
  rw [if_neg]
  rintro ⟨h1, h2⟩
  rcases h0 with h0 | h0
  · exact h2 h0
  · exact h0 (by simpa using h1)

theorem groupKeys_group {f : File K} {p : List Str} {u : File K} (hu : under f p = u) (h : ∀ x ∈ u, x.1 ≠ []) (h0 : p = [] ∨ u ≠ []) :
    groupKeys f p = .ok (childNames u) := by
  unfold groupKeys
  rw [nodeAt_group hu h h0, hu]

theorem fEntries_paths {e : List (Str × Val K)} : ∀ x ∈ fEntries e, x.1 ≠ [] := by
  intro x hx
  obtain ⟨y, _, r, _, hr⟩ := mem_fEntries hx
  simp [hr]

theorem fList_paths {l : List (Val K)} {i : ℕ} : ∀ x ∈ fList i l, x.1 ≠ [] := by
  intro x hx
  obtain ⟨y, _, r, _, _, hr⟩ := mem_fList hx
  simp [hr]

theorem childNames_fEntries {e : List (Str × Val K)} (h : ∀ x ∈ e, fVal x.2 ≠ []) {k : Str} :
    k ∈ childNames (fEntries e) ↔ ∃ x ∈ e, x.1 = k := by
  rw [mem_childNames]
  constructor
  · rintro ⟨p, s, hm⟩
    obtain ⟨y, hy, r, _, hr⟩ := mem_fEntries hm
    simp at hr
    exact ⟨y, hy, hr.1.symm⟩
  · rintro ⟨x, hx, rfl⟩
    obtain ⟨y, hy⟩ := List.exists_mem_of_ne_nil _ (h x hx)
    exact ⟨y.1, y.2, fEntries_mem hx hy⟩

theorem dlookup_mem {e : List (Str × Val K)} {k : Str} {v : Val K} (h : e.lookup k = some v) : (k, v) ∈ e := by
  induction e with
  | nil => cases h
  | cons x e ih =>
    obtain ⟨a, b⟩ := x
    rw [List.lookup] at h
    by_cases hk : k = a
    · subst hk; simp at h; simp [h]
    · rw [show (k == a) = false from by simpa using hk] at h
      exact List.mem_cons_of_mem _ (ih h)

theorem dlookup_isSome {e : List (Str × Val K)} {k : Str} : (e.lookup k).isSome = true ↔ k ∈ e.map Prod.fst := by
  induction e with
  | nil => simp [List.lookup]
  | cons x e ih =>
    obtain ⟨a, b⟩ := x
    rw [List.lookup]
    by_cases hk : k = a
    · subst hk; simp
    · rw [show (k == a) = false from by simpa using hk]
      simp only [List.map_cons, List.mem_cons]
      rw [ih]
      simp [hk]

theorem mem_dlookup {e : List (Str × Val K)} (hn : (e.map Prod.fst).Nodup) {k : Str} {v : Val K} (h : (k, v) ∈ e) :
    e.lookup k = some v := by
  have h1 : (e.lookup k).isSome = true := dlookup_isSome.2 (List.mem_map.2 ⟨_, h, rfl⟩)
  obtain ⟨w, hw⟩ := Option.isSome_iff_exists.1 h1
  have h2 := dlookup_mem hw
  rw [hw]
  congr 1
  have := List.inj_on_of_nodup_map hn h2 h rfl
  exact (Prod.mk.inj this).2

/-- Reading the members of a group one by one. -/
theorem read_items (f : File K) (rec : Str → PyM (List (Str × Val K))) (path : Str) (e : List (Str × Val K))
    (hn : (e.map Prod.fst).Nodup) (hne : ∀ x ∈ e, fVal x.2 ≠ [])
    (h : ∀ x ∈ e, ∃ v', readItem rec f path x.1 = .ok (x.1, v') ∧ Comes x.2 v') :
    ∃ e', (childNames (fEntries e)).mapM (readItem rec f path) = .ok e' ∧ Comes (.dict e) (.dict e') := by
  have hex : ∀ k ∈ childNames (fEntries e), ∃ y, readItem rec f path k = .ok y := by
    intro k hk
    obtain ⟨x, hx, rfl⟩ := (childNames_fEntries hne).1 hk
    obtain ⟨v', hv, _⟩ := h x hx
    exact ⟨_, hv⟩
  obtain ⟨e', he'⟩ := mapM_ok_of hex
  obtain ⟨hl, hi⟩ := mapM_ok_inv he'
  have hkeys : e'.map Prod.fst = childNames (fEntries e) := by
    apply List.ext_getElem?
    intro i
    rw [List.getElem?_map]
    cases hc : (childNames (fEntries e))[i]? with
    | none =>
      rw [List.getElem?_eq_none_iff] at hc
      rw [List.getElem?_eq_none (by omega)]
      rfl
    | some k =>
      obtain ⟨y, hy1, hy2⟩ := hi i k hc
      obtain ⟨x, hx, rfl⟩ := (childNames_fEntries hne).1 (List.mem_of_getElem? hc)
      obtain ⟨v', hv, _⟩ := h x hx
      rw [hv] at hy1
      obtain rfl := Except.ok.inj hy1
      rw [hy2]
      rfl
  have hn' : (e'.map Prod.fst).Nodup := by rw [hkeys]; exact childNames_nodup _
  refine ⟨e', he', Comes.dict e e' hn' ?_ ?_⟩
  · intro k
    rw [Bool.eq_iff_iff, dlookup_isSome, dlookup_isSome, hkeys, childNames_fEntries hne]
    simp
  · intro k v v' hv hv'
    have h1 := dlookup_mem hv
    have h2 := dlookup_mem hv'
    obtain ⟨i, hi1⟩ := List.mem_iff_getElem?.1 h2
    have h3 : (childNames (fEntries e))[i]? = some k := by rw [← hkeys, List.getElem?_map, hi1]; rfl
    obtain ⟨y, hy1, hy2⟩ := hi i k h3
    rw [hi1] at hy2
    obtain rfl := Option.some.inj hy2
    obtain ⟨w, hw, hc⟩ := h (k, v) h1
    rw [hw] at hy1
    have := Except.ok.inj hy1
    simp at this
    subst this
    exact hc

theorem group_read {f : File K} {fuel : ℕ} {path : Str} {e : List (Str × Val K)} (hu : under f (comps path) = fEntries e)
    (h0 : comps path = [] ∨ fEntries e ≠ []) :
    groupToDict (fuel + 1) f path = (childNames (fEntries e)).mapM (readItem (groupToDict fuel f) f path) := by
  rw [groupToDict, groupKeys_group hu fEntries_paths h0]
  rfl

theorem under_item {f : File K} {p : List Str} {e : List (Str × Val K)} (hu : under f p = fEntries e)
    (hn : (e.map Prod.fst).Nodup) {x : Str × Val K} (hx : x ∈ e) : under f (p ++ [x.1]) = fVal x.2 := by
  rw [under_append, hu, under_fEntries hn hx]

theorem read_plain {f : File K} {rec : Str → PyM (List (Str × Val K))} {path k : Str} {v : Val K}
    (hu : under f (comps path ++ [k]) = fVal v) (h : Plain v ∨ v = .null) : ∃ v', readItem rec f path k = .ok (k, v') ∧ Comes v v' := by
  rcases h with h | rfl
  · obtain ⟨s, h1, _, h2⟩ := readData_plain h
    rw [h1] at hu
    unfold readItem
    rw [nodeAt_data hu]
    exact ⟨_, rfl, h2⟩
  · rw [fVal] at hu
    unfold readItem
    rw [nodeAt_data hu]
    exact ⟨_, rfl, by rw [readData, if_pos rfl]; exact Comes.null⟩

theorem flat_ne_nil {e : List (Str × Val K)} (h : Flat e) : fEntries e ≠ [] := by
  have := fElem_ne_nil (v := .dict e) (Or.inr ⟨e, rfl, h⟩)
  rwa [fElem] at this

theorem read_flat {f : File K} {fuel : ℕ} {path : Str} {e : List (Str × Val K)} (hf : Flat e)
    (hu : under f (comps path) = fEntries e) : ∃ e', groupToDict (fuel + 1) f path = .ok e' ∧ Comes (.dict e) (.dict e') := by
  rw [group_read hu (Or.inr (flat_ne_nil hf))]
  refine read_items f _ path e hf.2.1 ?_ ?_
  · intro x hx
    rcases (hf.2.2 x hx).2 with h | h
    · exact fVal_ne_nil (Document.plain 0 _ h)
    · rw [h]; exact fVal_ne_nil (Document.null 0)
  · intro x hx
    exact read_plain (under_item hu hf.2.1 hx) (hf.2.2 x hx).2

theorem childNames_fList {l : List (Val K)} (h : ∀ v ∈ l, fElem v ≠ []) {k : Str} :
    k ∈ childNames (fList 0 l) ↔ ∃ j < l.length, k = listName j := by
  rw [mem_childNames]
  constructor
  · rintro ⟨p, s, hm⟩
    obtain ⟨j, v, r, h1, _, h3⟩ := mem_fList hm
    simp at h3
    exact ⟨j, (List.getElem?_eq_some_iff.1 h1).1, h3.1⟩
  · rintro ⟨j, hj, rfl⟩
    have h1 : l[j]? = some l[j] := List.getElem?_eq_getElem hj
    have h2 := under_fList (i := 0) h1
    obtain ⟨y, hy⟩ := List.exists_mem_of_ne_nil _ (h l[j] (List.getElem_mem hj))
    rw [← h2, mem_under] at hy
    exact ⟨y.1, y.2, by simpa using hy⟩

/-- The numbers of the elements, sorted, are `0, 1, …`. -/
theorem list_numbers {l : List (Val K)} (h : ∀ v ∈ l, fElem v ≠ []) :
    ∃ is, (childNames (fList 0 l)).mapM (fun k => pyIntOf (k.drop 4)) = .ok is ∧
      is.insertionSort (· ≤ ·) = (List.range l.length).map fun j : ℕ => (j : ℤ) := by
  have hg : ∀ k ∈ childNames (fList 0 l), ∃ y, pyIntOf (k.drop 4) = .ok y := by
    intro k hk
    obtain ⟨j, _, rfl⟩ := (childNames_fList h).1 hk
    rw [listName_drop, pyIntOf_dec]
    exact ⟨_, rfl⟩
  obtain ⟨is, his⟩ := mapM_ok_of hg
  refine ⟨is, his, ?_⟩
  obtain ⟨hl, hi⟩ := mapM_ok_inv his
  have hmem : ∀ (i : ℕ) (z : ℤ), is[i]? = some z → ∃ j < l.length, (childNames (fList 0 l))[i]? = some (listName j) ∧ z = (j : ℤ) := by
    intro i z hz
    have hlt := (List.getElem?_eq_some_iff.1 hz).1
    rw [hl] at hlt
    have hk := List.getElem?_eq_getElem hlt
    obtain ⟨y, hy1, hy2⟩ := hi i _ hk
    obtain ⟨j, hj, hkj⟩ := (childNames_fList h).1 (List.getElem_mem hlt)
    refine ⟨j, hj, by rw [hk, hkj], ?_⟩
    rw [hkj, listName_drop, pyIntOf_dec] at hy1
    rw [hz] at hy2
    rw [Option.some.inj hy2, ← Except.ok.inj hy1]
  have hnd : is.Nodup := by
    rw [List.nodup_iff_getElem?_ne_getElem?]
    intro i j hij hj hE
    obtain ⟨z, hz⟩ : ∃ z, is[j]? = some z := ⟨_, List.getElem?_eq_getElem hj⟩
    obtain ⟨a, _, ha2, ha3⟩ := hmem i z (hE ▸ hz)
    obtain ⟨b, _, hb2, hb3⟩ := hmem j z hz
    have hab : a = b := by have := ha3.symm.trans hb3; exact_mod_cast this
    rw [hl] at hj
    exact (List.nodup_iff_getElem?_ne_getElem?.1 (childNames_nodup (fList 0 l))) i j hij hj (by rw [ha2, hb2, hab])
  have hperm : (is.insertionSort (· ≤ ·)).Perm ((List.range l.length).map fun j : ℕ => (j : ℤ)) := by
    refine (List.perm_insertionSort _ _).trans ?_
    rw [List.perm_ext_iff_of_nodup hnd (List.Nodup.map (fun a b h => by exact_mod_cast h) List.nodup_range)]
    intro z
    constructor
    · intro hz
      obtain ⟨i, hi⟩ := List.mem_iff_getElem?.1 hz
      obtain ⟨j, hj, _, rfl⟩ := hmem i z hi
      exact List.mem_map.2 ⟨j, List.mem_range.2 hj, rfl⟩
    · intro hz
      obtain ⟨j, hj, rfl⟩ := List.mem_map.1 hz
      rw [List.mem_range] at hj
      have hk := (childNames_fList h).2 ⟨j, hj, rfl⟩
      obtain ⟨i, hi1⟩ := List.mem_iff_getElem?.1 hk
      obtain ⟨y, hy1, hy2⟩ := hi i _ hi1
      rw [listName_drop, pyIntOf_dec] at hy1
      obtain rfl := Except.ok.inj hy1
      exact List.mem_of_getElem? hy2
  refine hperm.eq_of_sortedLE List.sortedLE_insertionSort ?_
  apply List.Pairwise.sortedLE
  rw [List.pairwise_map]
  exact List.pairwise_lt_range.imp fun h => by exact_mod_cast h.le

theorem forall₂_of_getElem {α β : Type} {R : α → β → Prop} {l : List α} {l' : List β} (hl : l'.length = l.length)
    (h : ∀ (i : ℕ) (a : α) (b : β), l[i]? = some a → l'[i]? = some b → R a b) : List.Forall₂ R l l' := by
  rw [List.forall₂_iff_get]
  refine ⟨hl.symm, fun i h1 h2 => ?_⟩
  exact h i _ _ (List.getElem?_eq_getElem h1) (List.getElem?_eq_getElem h2)

theorem read_list {f : File K} {fuel : ℕ} {pk : Str} {l : List (Val K)}
    (h : ∀ v ∈ l, Plain v ∨ ∃ e, v = .dict e ∧ Flat e) (hu : under f (comps pk) = fList 0 l) :
    ∃ v', readList (groupToDict (fuel + 1) f) f pk (childNames (fList 0 l)) = .ok v' ∧ Comes (.list l) v' := by
  have hne : ∀ v ∈ l, fElem v ≠ [] := fun v hv => fElem_ne_nil (h v hv)
  obtain ⟨is, his, hs⟩ := list_numbers hne
  have hcomp : ∀ j : ℕ, comps (pk ++ '/' :: listText ++ decZ (j : ℤ)) = comps pk ++ [listName j] := by
    intro j
    rw [decZ_nat, List.append_assoc, List.cons_append, comps_slash]
    congr 1
    exact comps_key (listName_good j)
  have hel : ∀ j : ℕ, ∀ v, l[j]? = some v → ∃ v', readElem (groupToDict (fuel + 1) f) f pk (j : ℤ) = .ok v' ∧ Comes v v' := by
    intro j v hj
    have hun : under f (comps (pk ++ '/' :: listText ++ decZ (j : ℤ))) = fElem v := by
      rw [hcomp, under_append, hu]
      have := under_fList (i := 0) hj
      rwa [Nat.zero_add] at this
    unfold readElem
    rcases h v (List.mem_of_getElem? hj) with hp | ⟨e, rfl, he⟩
    · obtain ⟨s, _, h1, h2⟩ := readData_plain hp
      rw [h1] at hun
      rw [nodeAt_data hun]
      exact ⟨_, rfl, h2⟩
    · rw [fElem] at hun
      rw [nodeAt_group hun fEntries_paths (Or.inr (flat_ne_nil he))]
      obtain ⟨e', he1, he2⟩ := read_flat (fuel := fuel) he hun
      dsimp only
      rw [he1]
      exact ⟨_, rfl, he2⟩
  unfold readList
  rw [his]
  show ∃ v', ((is.insertionSort (· ≤ ·)).mapM (readElem (groupToDict (fuel + 1) f) f pk) >>= fun vs => Except.ok (Val.list vs)) = .ok v' ∧ _
  rw [hs]
  obtain ⟨vs, hvs⟩ := mapM_ok_of (f := readElem (groupToDict (fuel + 1) f) f pk) (l := (List.range l.length).map fun j : ℕ => (j : ℤ)) (by
    intro z hz
    obtain ⟨j, hj, rfl⟩ := List.mem_map.1 hz
    obtain ⟨v', hv, _⟩ := hel j _ (List.getElem?_eq_getElem (List.mem_range.1 hj))
    exact ⟨v', hv⟩)
  obtain ⟨hvl, hvi⟩ := mapM_ok_inv hvs
  rw [hvs]
  refine ⟨_, rfl, Comes.list _ _ (forall₂_of_getElem (by simpa using hvl) ?_)⟩
  intro i a b ha hb
  obtain ⟨v', hv1, hv2⟩ := hel i a ha
  obtain ⟨y, hy1, hy2⟩ := hvi i (i : ℤ) (by
    rw [List.getElem?_map, List.getElem?_range (List.getElem?_eq_some_iff.1 ha).1]; rfl)
  rw [hv1] at hy1
  obtain rfl := Except.ok.inj hy1
  rw [hb] at hy2
  rw [Option.some.inj hy2]
  exact hv2

theorem read_doc (f : File K) : ∀ (n fuel : ℕ) (e : List (Str × Val K)) (p : Str), n < fuel → (e.map Prod.fst).Nodup →
    (∀ x ∈ e, GoodKey x.1) → (∀ x ∈ e, Document n x.2) → under f (comps (p ++ ['/'])) = fEntries e →
    (comps (p ++ ['/']) = [] ∨ e ≠ []) →
    ∃ e', groupToDict fuel f (p ++ ['/']) = .ok e' ∧ Comes (.dict e) (.dict e') := by
  intro n
  induction n with
  | zero =>
    intro fuel e p hf hn hk hd hu h0
    obtain ⟨fuel, rfl⟩ : ∃ m, fuel = m + 1 := ⟨fuel - 1, by omega⟩
    have hne : ∀ x ∈ e, fVal x.2 ≠ [] := fun x hx => fVal_ne_nil (hd x hx)
    rw [group_read hu]
    · refine read_items f _ _ e hn hne fun x hx => ?_
      refine read_plain (under_item hu hn hx) ?_
      have := hd x hx
      generalize x.2 = v at this
      cases this with
      | plain _ _ h => exact Or.inl h
      | null => exact Or.inr rfl
    · rcases h0 with h0 | h0
      · exact Or.inl h0
      · obtain ⟨x, hx⟩ := List.exists_mem_of_ne_nil _ h0
        obtain ⟨y, hy⟩ := List.exists_mem_of_ne_nil _ (hne x hx)
        exact Or.inr (List.ne_nil_of_mem (fEntries_mem hx (r := y.1) (s := y.2) hy))
  | succ n ih =>
    intro fuel e p hf hn hk hd hu h0
    obtain ⟨fuel, rfl⟩ : ∃ m, fuel = m + 2 := ⟨fuel - 2, by omega⟩
    have hne : ∀ x ∈ e, fVal x.2 ≠ [] := fun x hx => fVal_ne_nil (hd x hx)
    rw [group_read hu]
    · refine read_items f _ _ e hn hne fun x hx => ?_
      have hun := under_item hu hn hx
      have hck := comps_dir_key p (hk x hx)
      have hdx := hd x hx
      have hnx := hne x hx
      obtain ⟨k, v⟩ := x
      dsimp only at *
      cases hdx with
      | plain _ _ h => exact read_plain hun (Or.inl h)
      | null => exact read_plain hun (Or.inr rfl)
      | list _ l hl0 hl =>
        rw [fVal] at hun hnx
        unfold readItem
        rw [nodeAt_group hun fList_paths (Or.inr hnx)]
        dsimp only
        unfold readGroup
        rw [comps_dir, hck, groupKeys_group hun fList_paths (Or.inr hnx)]
        obtain ⟨v', hv1, hv2⟩ := read_list (fuel := fuel) (pk := p ++ ['/'] ++ k) hl (by rw [hck]; exact hun)
        refine ⟨v', ?_, hv2⟩
        cases hc : childNames (fList 0 l) with
        | nil =>
          cases l with
          | nil => exact absurd rfl hl0
          | cons a l =>
            have := (childNames_fList (fun v hv => fElem_ne_nil (hl v hv))).2 ⟨0, by simp, rfl⟩
            rw [hc] at this
            cases this
        | cons k0 ks =>
          show Except.map _ (if k0.take 4 = listText then _ else _) = _
          obtain ⟨j, _, rfl⟩ := (childNames_fList (k := k0) (fun v hv => fElem_ne_nil (hl v hv))).1 (by rw [hc]; simp)
          rw [if_pos (listName_take j), ← hc, hv1]
          rfl
      | dict _ d hd0 hdn hdk hdd =>
        rw [fVal] at hun hnx
        unfold readItem
        rw [nodeAt_group hun fEntries_paths (Or.inr hnx)]
        dsimp only
        unfold readGroup
        rw [comps_dir, hck, groupKeys_group hun fEntries_paths (Or.inr hnx)]
        obtain ⟨e', he1, he2⟩ := ih (fuel + 1) d (p ++ ['/'] ++ k) (by omega) hdn (fun x hx => (hdk x hx).1) hdd
          (by rw [comps_dir, hck]; exact hun) (Or.inr hd0)
        refine ⟨.dict e', ?_, he2⟩
        have hnd : ∀ x ∈ d, fVal x.2 ≠ [] := fun x hx => fVal_ne_nil (hdd x hx)
        cases hc : childNames (fEntries d) with
        | nil =>
          obtain ⟨x, hx⟩ := List.exists_mem_of_ne_nil _ hd0
          have := (childNames_fEntries hnd).2 ⟨x, hx, rfl⟩
          rw [hc] at this
          cases this
        | cons k0 ks =>
          show Except.map _ (if k0.take 4 = listText then _ else _) = _
          obtain ⟨x, hx, rfl⟩ := (childNames_fEntries hnd).1 (by rw [hc]; exact List.mem_cons_self)
          rw [if_neg, he1]
          · rfl
          · intro ht
            refine (hdk x hx).2 ?_
            rw [List.prefix_iff_eq_take]
            exact ht.symm
    · rcases h0 with h0 | h0
      · exact Or.inl h0
      · obtain ⟨x, hx⟩ := List.exists_mem_of_ne_nil _ h0
        obtain ⟨y, hy⟩ := List.exists_mem_of_ne_nil _ (hne x hx)
        exact Or.inr (List.ne_nil_of_mem (fEntries_mem hx (r := y.1) (s := y.2) hy))

theorem saveDoc_read {n limit : ℕ} {e : List (Str × Val K)} (h : SaveDoc n e) (hl : n < limit) :
    ∃ e', groupToDict limit (fEntries e) ['/'] = .ok e' ∧ Comes (.dict e) (.dict e') := by
  have := read_doc (fEntries e) n limit e [] hl h.1 h.2.1 h.2.2 (by
    rw [comps_dir, comps_nil, under_nil]) (Or.inl (by rw [comps_dir, comps_nil]))
  simpa using this

end Kinisi
