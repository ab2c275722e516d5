import Verif.Props.Persist

/-!
# C59-C65: saving and loading files
-/

set_option linter.unusedSectionVars false
set_option linter.unusedVariables false

namespace Kinisi
open Spec

variable {K D : Type}

/-! ## C59 -/

theorem setFile_same (fs : FS K) (t : Str) (c : Content K) : setFile fs t c t = some c := by simp [setFile]

theorem setFile_other (fs : FS K) {t s : Str} (c : Content K) (h : s ≠ t) : setFile fs t c s = fs s := by simp [setFile, h]

/-- **C59.** A dictionary of documents is saved without an exception, no other file changes, and what is loaded is the same nested dictionary:
same keys, same values (strings as bytes), lists in order.  `limit` is Python's recursion limit. -/
theorem C59_roundtrip {n limit : ℕ} {d : List (Str × Val K)} (h : SaveDoc n d) (hl : n < limit) (fs : FS K) (name : Str)
    (hfree : fs (target name) = none) :
    ∃ fs' d', save fs name (.ok d) = (fs', .ok ()) ∧ readFile limit fs' name = .ok d' ∧ Comes (.dict d) (.dict d') ∧
      ∀ s, s ≠ target name → fs' s = fs s := by
  obtain ⟨e', h1, h2⟩ := saveDoc_read h hl
  refine ⟨setFile fs (target name) (.hdf (fEntries d)), e', ?_, ?_, h2, fun s hs => setFile_other fs _ hs⟩
  · unfold save
    simp only [hfree, saveDoc_write h]
    simp
  · unfold readFile
    rw [setFile_same]
    exact h1

/-- Lists keep their order also when they have more than ten elements (the names `list10` and `list2` are not sorted as numbers). -/
theorem C59_list_order {limit : ℕ} (l : List (Nd K)) (hne : l ≠ []) (hl : 1 < limit) (fs : FS K) (name : Str) (hfree : fs (target name) = none) :
    ∃ fs', save fs name (.ok [(k! "disp_3d", .list (l.map .arr))]) = (fs', .ok ()) ∧
      readFile limit fs' name = .ok [(k! "disp_3d", .list (l.map .arr))] := by
  have hd : SaveDoc 1 [(k! "disp_3d", Val.list (l.map Val.arr))] := by
    refine ⟨by simp, ?_, ?_⟩
    · intro x hx
      rw [List.mem_singleton] at hx; subst hx
      show GoodKey (k! "disp_3d")
      decide
    · intro x hx
      rw [List.mem_singleton] at hx; subst hx
      refine Document.list 0 _ (by simpa using hne) ?_
      intro v hv
      obtain ⟨a, _, rfl⟩ := List.mem_map.1 hv
      exact Or.inl (Plain.arr a)
  obtain ⟨fs', d', h1, h2, h3, -⟩ := C59_roundtrip hd hl fs name hfree
  refine ⟨fs', h1, ?_⟩
  rw [h2]
  cases h3 with
  | dict _ _ hn hk hv =>
    have hall : ∀ x ∈ d', x.1 = k! "disp_3d" := by
      intro x hx
      have := hk x.1
      rw [show (d'.lookup x.1).isSome = true from dlookup_isSome.2 (List.mem_map.2 ⟨x, hx, rfl⟩)] at this
      have := dlookup_isSome.1 this.symm
      simpa using this
    have hex : (d'.lookup (k! "disp_3d")).isSome = true := by rw [hk]; rfl
    obtain ⟨v', hv'⟩ := Option.isSome_iff_exists.1 hex
    have hc := hv _ _ _ (show ([(k! "disp_3d", Val.list (l.map Val.arr))] : List (Str × Val K)).lookup (k! "disp_3d") = some (.list (l.map .arr)) from rfl) hv'
    have hv2 : v' = .list (l.map .arr) := by
      cases hc with
      | list _ l' hf =>
        congr 1
        clear hv' hv h1 h2 hn hk hall hex hd hne hl
        induction l generalizing l' with
        | nil => cases hf; rfl
        | cons a l ih =>
          cases hf with
          | cons ha hf => cases ha; rw [List.map_cons, ih _ hf]
    subst hv2
    have hm := dlookup_mem hv'
    have hlen : d'.length ≤ 1 := by
      have hh : ∀ x ∈ d'.map Prod.fst, x = k! "disp_3d" := by
        intro x hx
        obtain ⟨y, hy, rfl⟩ := List.mem_map.1 hx
        exact hall y hy
      have := List.eq_replicate_of_mem hh
      rw [this] at hn
      rw [List.nodup_replicate] at hn
      simpa using hn
    match d', hm, hlen with
    | [x], hm, _ => rw [List.mem_singleton] at hm; rw [← hm]

/-- **C59, names.** The restriction to usable names is needed: under the name `.` nothing can be saved (h5py takes it for the group itself), and a name with a slash comes back
as a dictionary in a dictionary. -/
theorem C59_names (m : ℤ) (a : Nd K) : (save (fun _ => none) (k! "run") (.ok [(k! ".", (.int m : Val K))])).2 = .error .external ∧
    readFile 9 (save (fun _ => none) (k! "run") (.ok [(k! "a/b", (.arr a : Val K))])).1 (k! "run") = .ok [(k! "a", .dict [(k! "b", .arr a)])] :=
  ⟨rfl, rfl⟩

/-- The hypotheses of C59 hold for a nested example with a list of twelve arrays and a list of dictionaries. -/
example : SaveDoc 2 ([(k! "n", .int 3), (k! "name", .str (k! "Li")), (k! "none", .null),
    (k! "arrays", .list ((List.range 12).map fun i => .arr (.d1 [some (i : ℚ)]))),
    (k! "inner", .dict [(k! "x", .float none), (k! "flat", .list [.dict [(k! "a", .null)], .dict [(k! "list1", .int 2)]])])] :
    List (Str × Val ℚ)) := by
  refine ⟨by decide, by decide, ?_⟩
  intro x hx
  simp only [List.mem_cons, List.not_mem_nil, or_false] at hx
  rcases hx with rfl | rfl | rfl | rfl | rfl
  · exact .plain _ _ (.int 3)
  · exact .plain _ _ (.str _ (by decide))
  · exact .null _
  · refine .list 1 _ (by decide) ?_
    intro v hv
    obtain ⟨i, _, rfl⟩ := List.mem_map.1 hv
    exact Or.inl (.arr _)
  · refine .dict 1 _ (by simp) (by decide) (by decide) ?_
    intro y hy
    simp only [List.mem_cons, List.not_mem_nil, or_false] at hy
    rcases hy with rfl | rfl
    · exact .plain _ _ (.float none)
    · refine .list 0 _ (by simp) ?_
      intro v hv
      simp only [List.mem_cons, List.not_mem_nil, or_false] at hv
      rcases hv with rfl | rfl
      · exact Or.inr ⟨_, rfl, by simp, by decide, fun x hx => by
          rw [List.mem_singleton] at hx; subst hx; exact ⟨by decide, Or.inr rfl⟩⟩
      · exact Or.inr ⟨_, rfl, by simp, by decide, fun x hx => by
          rw [List.mem_singleton] at hx; subst hx; exact ⟨by decide, Or.inl (.int 2)⟩⟩

/-! ## C61 -/

theorem beforeLastDot_nodot {s : Str} (h : '.' ∉ s) : beforeLastDot s = s := by
  unfold beforeLastDot
  rw [if_neg h]

theorem beforeLastDot_ext (stem ext : Str) (h : '.' ∉ ext) : beforeLastDot (stem ++ '.' :: ext) = stem := by
  unfold beforeLastDot
  rw [if_pos (by simp)]
  have h1 : (stem ++ '.' :: ext).reverse = ext.reverse ++ '.' :: stem.reverse := by simp
  have h2 : (ext.reverse ++ '.' :: stem.reverse).dropWhile (· ≠ '.') = '.' :: stem.reverse := by
    rw [List.dropWhile_append_of_pos]
    · simp
    · intro c hc
      have : c ≠ '.' := by rintro rfl; exact h (by simpa using hc)
      simpa using this
  rw [h1, h2]
  simp

/-- **C61, same file.** After a successful save, loading under any name with the same target reads the file just written. -/
theorem C61_same_file {limit : ℕ} {fs fs' : FS K} {name name' : Str} {d : List (Str × Val K)}
    (h : save fs name (.ok d) = (fs', .ok ())) (ht : target name' = target name) :
    readFile limit fs' name' = groupToDict limit (writeDict d).1 ['/'] := by
  unfold save at h
  simp only at h
  by_cases hs : (fs (target name)).isSome
  · rw [if_pos hs] at h; cases (Prod.mk.inj h).2
  · rw [if_neg hs] at h
    obtain ⟨rfl, -⟩ := Prod.mk.inj h
    unfold readFile
    rw [ht, setFile_same]

/-- **C61, extensions.** Without a dot in it a name denotes the file `name.hdf`, and so does the name with any extension. -/
theorem C61_extension (stem ext : Str) (hs : '.' ∉ stem) (he : '.' ∉ ext) :
    target stem = stem ++ k! ".hdf" ∧ target (stem ++ '.' :: ext) = stem ++ k! ".hdf" := by
  unfold target
  rw [beforeLastDot_nodot hs, beforeLastDot_ext stem ext he]
  exact ⟨rfl, rfl⟩

/-- **C61, changing an extension** does not matter, whatever the rest of the name is. -/
theorem C61_change_extension (stem ext ext' : Str) (h : '.' ∉ ext) (h' : '.' ∉ ext') :
    target (stem ++ '.' :: ext) = target (stem ++ '.' :: ext') := by
  unfold target
  rw [beforeLastDot_ext stem ext h, beforeLastDot_ext stem ext' h']

/-- **C61, what holds of the last part.** Different names without a dot denote different files.  Missing: names without an extension whose
directory has a dot, see `C61_violated`. -/
theorem C61_injective_partial (a b : Str) (ha : '.' ∉ a) (hb : '.' ∉ b) (h : target a = target b) : a = b := by
  unfold target at h
  rw [beforeLastDot_nodot ha, beforeLastDot_nodot hb] at h
  exact List.append_cancel_right h

/-- The file name has no extension: no dot after the last slash. -/
def noExtension (s : Str) : Prop := '.' ∉ s.reverse.takeWhile (· ≠ '/')

instance (s : Str) : Decidable (noExtension s) := inferInstanceAs (Decidable (¬ _))

/-- **C61 is violated** by directories with a dot: `./a` and `./b` both denote the hidden file `.hdf` of the working directory, `../a` denotes
`..hdf` there, `run.1/out` denotes the file `run.hdf` outside the directory; and adding `.hdf` to `run.1` changes the file that is meant. -/
theorem C61_violated :
    (noExtension (k! "./a") ∧ noExtension (k! "./b") ∧ target (k! "./a") = target (k! "./b") ∧ target (k! "./a") = k! ".hdf") ∧
    (noExtension (k! "run.1/out") ∧ target (k! "run.1/out") = k! "run.hdf") ∧ target (k! "../a") = k! "..hdf" ∧
    target (k! "run.1") = k! "run.hdf" ∧ target (k! "run.1.hdf") = k! "run.1.hdf" := by
  decide

/-- The hypotheses of the C61 theorems hold for ordinary names. -/
example : '.' ∉ k! "out/run" ∧ '.' ∉ k! "hdf" ∧ target (k! "out/run") = k! "out/run.hdf" ∧ target (k! "out/run.npz") = k! "out/run.hdf" := by
  decide

/-! ## C62 -/

/-- **C62, one process.** If the target exists, save raises ValueError and nothing changes. -/
theorem C62_existing (fs : FS K) (name : Str) (d : List (Str × Val K)) (h : (fs (target name)).isSome) :
    save fs name (.ok d) = (fs, .error .valueError) := by
  unfold save
  simp only
  rw [if_pos h]

/-- **C62.** Whatever happens in save, no existing file changes. -/
theorem C62_unchanged (fs : FS K) (name : Str) (d : PyM (List (Str × Val K))) (s : Str) (c : Content K) (h : fs s = some c) :
    (save fs name d).1 s = some c := by
  unfold save
  cases d with
  | error e => exact h
  | ok d =>
    simp only
    by_cases hs : (fs (target name)).isSome
    · rw [if_pos hs]; exact h
    · rw [if_neg hs]
      simp only
      have : s ≠ target name := by rintro rfl; rw [h] at hs; exact hs rfl
      rw [setFile_other fs _ this]
      exact h

/-- A step of one process leaves the files alone that exist and are not its target in the second phase. -/
theorem step_keeps {fs : FS K} {p : Saver K} {s : Str} {c : Content K} (h : fs s = some c) (hp : p.phase = 1 → target p.name ≠ s) :
    (p.step fs).1 s = some c ∧ ((p.step fs).2.phase = 1 → target (p.step fs).2.name ≠ s) := by
  unfold Saver.step
  split
  · split
    · exact ⟨h, fun hh => absurd hh (Nat.succ_ne_self 1)⟩
    · rename_i hs
      refine ⟨h, fun _ ht => ?_⟩
      simp only at ht
      rw [ht, h] at hs
      exact hs rfl
  · rename_i h1
    refine ⟨?_, fun hh => absurd hh (Nat.succ_ne_self 1)⟩
    simp only
    rw [setFile_other fs _ (Ne.symm (hp h1))]
    exact h
  · rename_i h0 h1
    exact ⟨h, fun hh => absurd hh h1⟩

/-- **C62, several processes, what holds.** In every interleaving of any number of savers, every file that exists before all of them start keeps its
content.  Missing: files created by one of the savers, see `C62_violated`. -/
theorem C62_interleaved_partial : ∀ (is : List ℕ) (fs : FS K) (ps : List (Saver K)) (s : Str) (c : Content K), fs s = some c →
    (∀ p ∈ ps, p.phase = 1 → target p.name ≠ s) → (runSavers fs ps is).1 s = some c := by
  intro is
  induction is with
  | nil => intro fs ps s c h _; exact h
  | cons i is ih =>
    intro fs ps s c h hp
    rw [runSavers]
    cases hi : ps[i]? with
    | none => exact ih fs ps s c h hp
    | some p =>
      obtain ⟨h1, h2⟩ := step_keeps h (hp p (List.mem_of_getElem? hi))
      refine ih _ _ s c h1 ?_
      intro q hq
      rcases List.mem_or_eq_of_mem_set hq with hq | rfl
      · exact hp q hq
      · exact h2

/-- **C62 is violated** by two processes that save under the same name: both find no file, both report success, and the document of the first is
gone. -/
theorem C62_violated : ∃ (fs : FS ℚ) (ps : List (Saver ℚ)) (is : List ℕ) (p q : Saver ℚ), (∀ s, fs s = none) ∧
    (∀ x ∈ ps, x.phase = 0 ∧ x.name = k! "run") ∧ (runSavers fs ps is).2 = [p, q] ∧ p.outcome = some (.ok ()) ∧ q.outcome = some (.ok ()) ∧
    p.doc = [(k! "a", .int 1)] ∧ (runSavers fs ps is).1 (k! "run.hdf") = some (.hdf [([k! "a"], .int 2)]) := by
  refine ⟨fun _ => none, [⟨k! "run", [(k! "a", .int 1)], 0, none⟩, ⟨k! "run", [(k! "a", .int 2)], 0, none⟩], [0, 1, 0, 1], _, _, fun _ => rfl, ?_, rfl, rfl, rfl,
    rfl, rfl⟩
  intro x hx
  simp only [List.mem_cons, List.not_mem_nil, or_false] at hx
  rcases hx with rfl | rfl <;> exact ⟨rfl, rfl⟩

/-- The hypothesis of `C62_existing` and `C62_interleaved_partial`: a saver starting while a file exists. -/
example : ∃ (fs : FS ℚ) (p : Saver ℚ), fs (target p.name) = some .foreign ∧ p.phase = 0 ∧
    (runSavers fs [p] [0, 0]).2.map (fun q => q.phase) = [2] :=
  ⟨fun _ => some .foreign, ⟨k! "run", [], 0, none⟩, rfl, rfl, by decide⟩

/-- `C61_same_file`, `C61_extension`, `C61_change_extension`, `C61_injective_partial` and `C62_unchanged`: `run.npz` is written to and read from
`run.hdf`; a file `old.hdf` stays. -/
example : ∃ fs' : FS ℚ, save (fun s => if s = k! "old.hdf" then some .foreign else none) (k! "run.npz") (.ok [(k! "x", .int 3)]) = (fs', .ok ()) ∧
    readFile 5 fs' (k! "run") = groupToDict 5 (writeDict [(k! "x", .int 3)]).1 ['/'] ∧ fs' (k! "old.hdf") = some .foreign ∧
    target (k! "run.npz") = target (k! "run.h5") ∧ target (k! "run") ≠ target (k! "walk") := by
  have hs : (save (fun s => if s = k! "old.hdf" then some .foreign else none : FS ℚ) (k! "run.npz") (.ok [(k! "x", .int 3)])).2 = .ok () := by
    decide +kernel
  refine ⟨_, Prod.ext rfl hs, ?_, ?_, ?_, ?_⟩
  · exact C61_same_file (Prod.ext rfl hs) ((C61_extension (k! "run") (k! "npz") (by decide) (by decide)).1.trans
      (C61_extension (k! "run") (k! "npz") (by decide) (by decide)).2.symm)
  · exact C62_unchanged (fun s => if s = k! "old.hdf" then some .foreign else none : FS ℚ) (k! "run.npz") (.ok [(k! "x", .int 3)]) (k! "old.hdf") .foreign rfl
  · exact C61_change_extension (k! "run") (k! "npz") (k! "h5") (by decide) (by decide)
  · exact fun h => absurd (C61_injective_partial (k! "run") (k! "walk") (by decide) (by decide) h) (by decide)

end Kinisi
