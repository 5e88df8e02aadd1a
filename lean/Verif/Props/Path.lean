import Verif.Manager.Path
/-
C131: which files `load` reads.
-/
namespace Verif.Props.Path
open Verif Verif.Path

instance (d : Disk) (p : Bytes) : Decidable (∀ es, d.kind p ≠ .directory es) := by
  cases d.kind p with
  | directory es => exact isFalse fun f => f es rfl
  | file => exact isTrue (fun _ e => nomatch e)
  | nothing => exact isTrue (fun _ e => nomatch e)

/-- what a directory of the load path has under a relative path: the file itself, or the files of the directory -/
def Has (d : Disk) (dir path : Bytes) (files : List Bytes) : Prop :=
  (d.kind (join dir path) = .file ∧ files = [join dir path]) ∨
  ∃ entries, d.kind (join dir path) = .directory entries ∧
    files = ((entries.filter fun e => e ∉ [ascii ".", ascii ".."]).map (join (join dir path))).filter fun p => ∀ es, d.kind p ≠ .directory es

/-- the directory has nothing under the path -/
def Lacks (d : Disk) (dir path : Bytes) : Prop := d.kind (join dir path) = .nothing

theorem isDirectory_iff (d : Disk) (p : Bytes) : d.isDirectory p = true ↔ ∃ es, d.kind p = .directory es := by
  unfold Disk.isDirectory
  split
  · rename_i es h
    exact ⟨fun _ => ⟨es, h⟩, fun _ => rfl⟩
  · rename_i h
    exact ⟨fun h => (by cases h), fun ⟨es, e⟩ => absurd e (h es)⟩

theorem not_directory (d : Disk) (p : Bytes) : (!d.isDirectory p) = decide (∀ es, d.kind p ≠ .directory es) := by
  by_cases h : d.isDirectory p = true
  · obtain ⟨es, he⟩ := (isDirectory_iff d p).mp h
    rw [h, decide_eq_false fun f => f es he]
    rfl
  · rw [decide_eq_true fun es he => h ((isDirectory_iff d p).mpr ⟨es, he⟩)]
    simpa using h

theorem search_lacks (d : Disk) (path : Bytes) (before rest : List Bytes) (h : ∀ dir ∈ before, Lacks d dir path) (found : List Bytes) :
    d.search path (before ++ rest) found =
      d.search path rest (found ++ before.flatMap fun dir => (d.glob (join dir path)).filter fun p => !d.isDirectory p) := by
  induction before generalizing found with
  | nil => simp
  | cons dir before ih =>
    have : d.kind (join dir path) = .nothing := h dir (List.mem_cons_self ..)
    rw [List.cons_append, Disk.search, this]
    dsimp only
    rw [ih fun e he => h e (List.mem_cons_of_mem _ he), List.append_assoc, List.flatMap_cons]

/-- **C131, partial** a relative path is looked for in the directories of the load path in order: `load` reads what the first directory that has it has, whatever the others have.
Missing: if that is an empty directory, it is an error. -/
theorem C131_first_partial (d : Disk) (before after : List Bytes) (dir path : Bytes) (hp : path.head? ≠ some 0x2f) (files : List Bytes)
    (hb : ∀ e ∈ before, Lacks d e path) (hd : Has d dir path files) (hf : files ≠ []) : d.load (before ++ dir :: after) path = some files := by
  have : d.resolve (before ++ dir :: after) path = files := by
    unfold Disk.resolve
    rw [if_neg hp, search_lacks d path before _ hb, Disk.search]
    rcases hd with ⟨hk, rfl⟩ | ⟨es, hk, rfl⟩
    · rw [hk]
    · rw [hk]
      dsimp only
      unfold Disk.files
      rw [show (fun e : Bytes => !(e == [0x2e] || e == [0x2e, 0x2e])) = fun e => decide (e ∉ [ascii ".", ascii ".."]) from by
        funext e
        simp only [show ascii "." = [0x2e] from by decide, show ascii ".." = [0x2e, 0x2e] from by decide, List.mem_cons, List.not_mem_nil, or_false]
        by_cases h1 : e = [0x2e]
        · simp [h1]
        · by_cases h2 : e = [0x2e, 0x2e]
          · simp [h2]
          · simp [h1, h2]]
      congr 1
      funext p
      exact not_directory d p
  unfold Disk.load
  rw [this]
  exact if_neg hf

/-- **C131, partial** if no directory of the load path has it, the path is a pattern: `load` reads the files that match it in every directory of the load path, in the order of the load path;
if there are none it is an error -/
theorem C131_pattern_partial (d : Disk) (dirs : List Bytes) (path : Bytes) (hp : path.head? ≠ some 0x2f) (hb : ∀ e ∈ dirs, Lacks d e path) :
    let files := dirs.flatMap fun dir => (d.glob (join dir path)).filter fun p => ∀ es, d.kind p ≠ .directory es
    d.load dirs path = if files = [] then none else some files := by
  have : d.resolve dirs path = dirs.flatMap fun dir => (d.glob (join dir path)).filter fun p => ∀ es, d.kind p ≠ .directory es := by
    unfold Disk.resolve
    have := search_lacks d path dirs [] hb []
    rw [List.append_nil] at this
    rw [if_neg hp, this, Disk.search, List.nil_append]
    congr 1
    funext dir
    congr 1
    funext p
    exact not_directory d p
  unfold Disk.load
  rw [this]

/-- an absolute path is read itself, whatever the load path is -/
theorem C131_absolute (d : Disk) (dirs : List Bytes) (path : Bytes) (hp : path.head? = some 0x2f) : d.load dirs path = some [path] := by
  unfold Disk.load Disk.resolve
  rw [if_pos hp]
  rfl

theorem search_no_directory (d : Disk) (path : Bytes) (dirs found : List Bytes) (hf : ∀ f ∈ found, ∀ es, d.kind f ≠ .directory es) :
    ∀ f ∈ d.search path dirs found, ∀ es, d.kind f ≠ .directory es := by
  have plain : ∀ l : List Bytes, ∀ f ∈ l.filter (fun p => !d.isDirectory p), ∀ es, d.kind f ≠ .directory es := by
    intro l f h es he
    have := (List.mem_filter.mp h).2
    rw [(isDirectory_iff d f).mpr ⟨es, he⟩] at this
    cases this
  induction dirs generalizing found with
  | nil => exact hf
  | cons dir dirs ih =>
    rw [Disk.search]
    split
    · exact plain _
    · rename_i h
      intro f hm es he
      rw [List.mem_singleton.mp hm, h] at he
      cases he
    · refine ih _ fun f hm => ?_
      rcases List.mem_append.mp hm with hm | hm
      · exact hf f hm
      · exact plain _ f hm

/-- for a relative path, `load` never reads a directory -/
theorem C131_no_directory (d : Disk) (dirs : List Bytes) (path : Bytes) (hp : path.head? ≠ some 0x2f) (files : List Bytes) (h : d.load dirs path = some files) :
    ∀ f ∈ files, ∀ es, d.kind f ≠ .directory es := by
  unfold Disk.load at h
  dsimp only at h
  split at h
  · cases h
  · have := Option.some.inj h
    rw [← this]
    unfold Disk.resolve
    rw [if_neg hp]
    exact search_no_directory d path dirs [] (by simp)

/-- **C131, violated** a directory without files is taken for a path that does not exist, and hides the files a later directory of the load path has under the same path -/
theorem C131_empty_violated (d : Disk) (before after : List Bytes) (dir path : Bytes) (hp : path.head? ≠ some 0x2f)
    (hb : ∀ e ∈ before, Lacks d e path) (hd : Has d dir path []) : d.load (before ++ dir :: after) path = none := by
  have : d.resolve (before ++ dir :: after) path = [] := by
    unfold Disk.resolve
    rw [if_neg hp, search_lacks d path before _ hb, Disk.search]
    rcases hd with ⟨hk, h⟩ | ⟨es, hk, h⟩
    · cases h
    · rw [hk]
      dsimp only
      rw [h]
      unfold Disk.files
      rw [show (fun e : Bytes => !(e == [0x2e] || e == [0x2e, 0x2e])) = fun e => decide (e ∉ [ascii ".", ascii ".."]) from by
        funext e
        simp only [show ascii "." = [0x2e] from by decide, show ascii ".." = [0x2e, 0x2e] from by decide, List.mem_cons, List.not_mem_nil, or_false]
        by_cases h1 : e = [0x2e]
        · simp [h1]
        · by_cases h2 : e = [0x2e, 0x2e]
          · simp [h2]
          · simp [h1, h2]]
      congr 1
      funext p
      exact not_directory d p
  unfold Disk.load
  rw [this]
  rfl

/-- a disk with files in two directories -/
def disk : Disk where
  kind p :=
    if p = ascii "/a/x.conf" then .file
    else if p = ascii "/b/x.conf" then .file
    else if p = ascii "/b/y" then .directory [ascii ".", ascii "..", ascii "one", ascii "two"]
    else if p = ascii "/b/y/one" then .file
    else if p = ascii "/b/y/two" then .directory []
    else if p = ascii "/a/z" then .directory [ascii ".", ascii ".."]
    else if p = ascii "/b/z" then .file
    else .nothing
  glob p := if p = ascii "/a/*.conf" then [ascii "/a/x.conf"] else if p = ascii "/b/*.conf" then [ascii "/b/x.conf"] else []

example : disk.load [ascii "/a", ascii "/b/"] (ascii "x.conf") = some [ascii "/a/x.conf"] := by decide +kernel
example : disk.load [ascii "/a", ascii "/b/"] (ascii "y") = some [ascii "/b/y/one"] := by decide +kernel
example : disk.load [ascii "/a", ascii "/b"] (ascii "*.conf") = some [ascii "/a/x.conf", ascii "/b/x.conf"] := by decide +kernel
example : disk.load [ascii "/a", ascii "/b"] (ascii "z") = none := by decide +kernel
example : disk.load [ascii "/a", ascii "/b"] (ascii "none") = none := by decide +kernel

end Verif.Props.Path
