import Verif.Model.ReadWolf
import Verif.Spec.StiffnessFiles
import Mathlib.Data.List.Forall2
import Mathlib.Data.Rat.Defs
import Mathlib.Algebra.Order.Field.Rat

set_option linter.unusedSectionVars false

namespace Rose

/-! ### C198: reading the files with the dynamic stiffness -/

theorem baseName_of (dir s : Name) (hd : dir = [] ∨ ∃ d, dir = d ++ ['/']) (hs : '/' ∉ s) : baseName (dir ++ s) = s := by
  have h : ∀ c ∈ s.reverse, (decide (c ≠ '/')) = true := by
    intro c hc
    simp only [List.mem_reverse] at hc
    simpa using fun e : c = '/' => hs (e ▸ hc)
  unfold baseName
  rw [List.reverse_append, List.takeWhile_append_of_pos h]
  rcases hd with rfl | ⟨d, rfl⟩
  · simp
  · simp

theorem baseName_split (p : Name) :
    ∃ dir, p = dir ++ baseName p ∧ (dir = [] ∨ ∃ d, dir = d ++ ['/']) ∧ '/' ∉ baseName p := by
  refine ⟨(p.reverse.dropWhile fun c => c ≠ '/').reverse, ?_, ?_, ?_⟩
  · unfold baseName
    rw [← List.reverse_append, List.takeWhile_append_dropWhile, List.reverse_reverse]
  · cases h : p.reverse.dropWhile fun c => c ≠ '/' with
    | nil => left; rfl
    | cons a t =>
      right
      have := List.head_dropWhile_not (fun c => decide (c ≠ '/')) (l := p.reverse) (by rw [h]; simp)
      simp only [h, List.head_cons] at this
      refine ⟨t.reverse, ?_⟩
      rw [List.reverse_cons]
      simp at this
      rw [this]
  · unfold baseName
    intro hm
    rw [List.mem_reverse] at hm
    have := List.all_eq_true.1 (List.all_takeWhile (p := fun c => decide (c ≠ '/')) (l := p.reverse)) _ hm
    simp at this

theorem splitExt_of (stem e : Name) (hs : ∃ c ∈ stem, c ≠ '.') (he : '.' ∉ e) : splitExt (stem ++ '.' :: e) = (stem, '.' :: e) := by
  have h : ∀ c ∈ e.reverse, (decide (c ≠ '.')) = true := by
    intro c hc
    simp only [List.mem_reverse] at hc
    simpa using fun x : c = '.' => he (x ▸ hc)
  have hr : (stem ++ '.' :: e).reverse = e.reverse ++ '.' :: stem.reverse := by simp
  unfold splitExt
  rw [hr, List.dropWhile_append_of_pos h, List.takeWhile_append_of_pos h]
  have h1 : (('.' :: stem.reverse).dropWhile fun c => decide (c ≠ '.')) = '.' :: stem.reverse := by simp
  rw [h1]
  have h2 : stem.reverse.all (fun c => decide (c = '.')) = false := by
    rw [List.all_eq_false]
    obtain ⟨c, hc, hn⟩ := hs
    exact ⟨c, by simpa using hc, by simpa using hn⟩
  simp only [h2]
  simp

theorem splitExt_spec (s e : Name) (h : (splitExt s).2 = '.' :: e) :
    s = (splitExt s).1 ++ '.' :: e ∧ ∃ c ∈ (splitExt s).1, c ≠ '.' := by
  have hd : s.reverse = (s.reverse.takeWhile fun c => c ≠ '.') ++ (s.reverse.dropWhile fun c => c ≠ '.') :=
    List.takeWhile_append_dropWhile.symm
  have hh := List.head_dropWhile_not (fun c => decide (c ≠ '.')) (l := s.reverse)
  unfold splitExt at h ⊢
  cases hw : s.reverse.dropWhile fun c => c ≠ '.' with
  | nil => rw [hw] at h; simp at h
  | cons a t =>
    rw [hw] at h hd
    have ha : a = '.' := by
      have := hh (by rw [hw]; simp)
      simp only [hw, List.head_cons] at this
      simpa using this
    by_cases hall : t.all (fun c => decide (c = '.')) = true
    · simp only [hall, if_true] at h; simp at h
    · simp only [hall] at h ⊢
      simp only [Bool.false_eq_true, if_false] at h ⊢
      constructor
      · have := congrArg List.reverse hd
        rw [List.reverse_reverse, List.reverse_append, List.reverse_cons, ha] at this
        rw [← h]
        rw [List.append_assoc] at this
        exact this
      · simp only [Bool.not_eq_true, List.all_eq_false] at hall
        obtain ⟨c, hc, hn⟩ := hall
        exact ⟨c, by simpa using hc, by simpa using hn⟩

/-- C198: exactly the json files are read. -/
theorem C198_json_iff (file : Name) : (splitExt (baseName file)).2 = ".json".toList ↔ Spec.IsStiffnessFile file := by
  constructor
  · intro h
    obtain ⟨dir, hp, hd, hs⟩ := baseName_split file
    obtain ⟨he, hn⟩ := splitExt_spec (baseName file) "json".toList h
    refine ⟨dir, (splitExt (baseName file)).1, ⟨?_, hd, ?_, hn⟩⟩
    · rw [List.append_assoc]
      exact hp.trans (congrArg (dir ++ ·) he)
    · intro hm
      apply hs
      rw [he]
      exact List.mem_append_left _ hm
  · rintro ⟨dir, stem, hf⟩
    rw [hf.path, List.append_assoc, baseName_of _ _ hf.directory, show ".json".toList = '.' :: "json".toList from rfl,
      splitExt_of _ _ hf.named (by decide)]
    simp only [List.mem_append, not_or]
    exact ⟨hf.noSlash, by decide⟩

/-- The name taken from a json file is its stem. -/
theorem wolfStem (dir stem file : Name) (hf : Spec.StiffnessFile dir stem file) : (splitExt (baseName file)).1 = stem := by
  rw [hf.path, List.append_assoc, baseName_of _ _ hf.directory, show ".json".toList = '.' :: "json".toList from rfl,
    splitExt_of _ _ hf.named (by decide)]
  simp only [List.mem_append, not_or]
  exact ⟨hf.noSlash, by decide⟩

variable {K : Type} [Field K] [LinearOrder K]

theorem firstValue_ok (data : PyDict Name (List K)) (key : Name) (x : K) :
    firstValue data key = .ok x ↔ Spec.FirstListed data key x := by
  unfold firstValue Spec.FirstListed PyDict.get
  cases data.get? key with
  | none => simp [bind, Except.bind]
  | some v => cases v <;> simp [bind, Except.bind]

theorem wolfRecord_ok (load : Name → Except Err (PyDict Name (List K))) (file : Name) (r : WolfResult K) :
    wolfRecord load file = .ok r ↔ r.name = (splitExt (baseName file)).1 ∧ ∃ data, load file = .ok data ∧
      Spec.FirstListed data "omega".toList r.omega ∧ Spec.FirstListed data "stiffness".toList r.stiffness ∧
      Spec.FirstListed data "damping".toList r.damping := by
  simp only [← firstValue_ok]
  unfold wolfRecord
  cases load file with
  | error e => simp [bind, Except.bind]
  | ok data =>
    simp only [bind, Except.bind, Except.ok.injEq, exists_eq_left']
    cases firstValue data "omega".toList with
    | error e => simp
    | ok a =>
      cases firstValue data "stiffness".toList with
      | error e => simp
      | ok b =>
        cases firstValue data "damping".toList with
        | error e => simp
        | ok c =>
          obtain ⟨n, a', b', c'⟩ := r
          simp [pure, Except.pure, eq_comm]

open Classical in
/-- C198: reading succeeds with the records `rs` exactly if these are, in the order of the files, one record for each json file in the
list, with the name of the file without directory and extension and the first frequency, stiffness and damping listed in it. -/
theorem C198_records_iff (load : Name → Except Err (PyDict Name (List K))) (files : List Name) (rs : List (WolfResult K)) :
    readWolf load files = .ok rs ↔
      List.Forall₂ (fun file (r : WolfResult K) => (∃ dir, Spec.StiffnessFile dir r.name file) ∧ ∃ data, load file = .ok data ∧
        Spec.FirstListed data "omega".toList r.omega ∧ Spec.FirstListed data "stiffness".toList r.stiffness ∧
        Spec.FirstListed data "damping".toList r.damping) (files.filter fun f => decide (Spec.IsStiffnessFile f)) rs := by
  induction files generalizing rs with
  | nil =>
    simp only [readWolf, List.filter_nil, List.forall₂_nil_left_iff, Except.ok.injEq]
    exact eq_comm
  | cons file files ih =>
    by_cases hj : Spec.IsStiffnessFile file
    · rw [List.filter_cons_of_pos (by simpa using hj), List.forall₂_cons_left_iff]
      simp only [readWolf, (C198_json_iff file).2 hj, if_true]
      have hname : ∀ n : Name, (∃ dir, Spec.StiffnessFile dir n file) ↔ n = (splitExt (baseName file)).1 := by
        intro n
        constructor
        · rintro ⟨dir, hf⟩
          exact (wolfStem dir n file hf).symm
        · intro h
          obtain ⟨dir, stem, hf⟩ := hj
          rw [h, wolfStem dir stem file hf]
          exact ⟨dir, hf⟩
      simp only [hname, ← wolfRecord_ok, ← ih]
      cases wolfRecord load file with
      | error e => simp [bind, Except.bind]
      | ok r =>
        cases readWolf load files with
        | error e => simp [bind, Except.bind]
        | ok rs' =>
          simp only [bind, Except.bind, pure, Except.pure, Except.ok.injEq]
          constructor
          · rintro rfl; exact ⟨r, rs', rfl, rfl, rfl⟩
          · rintro ⟨_, _, rfl, rfl, rfl⟩; rfl
    · rw [List.filter_cons_of_neg (by simpa using hj)]
      simp only [readWolf, mt (C198_json_iff file).1 hj, if_false]
      exact ih rs

/-- C198: reading fails exactly if some json file cannot be loaded or does not list the three values; other files are never opened. -/
theorem C198_accept_iff (load : Name → Except Err (PyDict Name (List K))) (files : List Name) :
    (∃ rs, readWolf load files = .ok rs) ↔ ∀ file ∈ files, Spec.IsStiffnessFile file → ∃ data omega stiffness damping,
      load file = .ok data ∧ Spec.FirstListed data "omega".toList omega ∧ Spec.FirstListed data "stiffness".toList stiffness ∧
        Spec.FirstListed data "damping".toList damping := by
  classical
  induction files with
  | nil => simp [readWolf]
  | cons file files ih =>
    rw [List.forall_mem_cons, ← ih]
    by_cases hj : Spec.IsStiffnessFile file
    · simp only [readWolf, (C198_json_iff file).2 hj, if_true, hj, true_implies]
      have hw : (∃ r, wolfRecord load file = .ok r) ↔ ∃ data omega stiffness damping,
          load file = .ok data ∧ Spec.FirstListed data "omega".toList omega ∧ Spec.FirstListed data "stiffness".toList stiffness ∧
            Spec.FirstListed data "damping".toList damping := by
        simp only [wolfRecord_ok]
        constructor
        · rintro ⟨r, _, data, h⟩; exact ⟨data, _, _, _, h⟩
        · rintro ⟨data, a, b, c, h⟩; exact ⟨⟨_, a, b, c⟩, rfl, data, h⟩
      rw [← hw]
      cases wolfRecord load file <;> cases readWolf load files <;> simp [bind, Except.bind, pure, Except.pure]
    · simp only [readWolf, mt (C198_json_iff file).1 hj, if_false, hj, false_implies, true_and]

/-- C198: the names of two different json files of one directory differ. -/
theorem C198_names_differ (dir stem stem' file file' : Name) (h : Spec.StiffnessFile dir stem file)
    (h' : Spec.StiffnessFile dir stem' file') (hne : file ≠ file') : stem ≠ stem' := by
  rintro rfl
  exact hne (h.path.trans h'.path.symm)

/-- C198: files of different directories can get the same name, whatever they contain. -/
theorem C198_names_coincide : ∃ file file' dir dir' stem : Name, file ≠ file' ∧ Spec.StiffnessFile dir stem file ∧
    Spec.StiffnessFile dir' stem file' :=
  ⟨"a/x.json".toList, "b/x.json".toList, "a/".toList, "b/".toList, "x".toList, by decide,
    ⟨by decide, .inr ⟨"a".toList, by decide⟩, by decide, ⟨'x', by decide, by decide⟩⟩,
    ⟨by decide, .inr ⟨"b".toList, by decide⟩, by decide, ⟨'x', by decide, by decide⟩⟩⟩

/-- A list with a json file, a text file and a hidden file: only the json file is read, with its first values. -/
example : readWolf (K := ℚ) (fun _ => .ok [("omega".toList, [7, 8]), ("stiffness".toList, [5]), ("damping".toList, [3, 4])])
    ["d/s_1.v.json".toList, "d/s.txt".toList, "d/.json".toList] = .ok [⟨"s_1.v".toList, 7, 5, 3⟩] := by
  rfl

end Rose
