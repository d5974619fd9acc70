import Verif.Files.Source

/-!
# Where parameters are read from: theorems
-/

set_option linter.unusedSimpArgs false

namespace Verif.Files

open Verif.Py

section
variable {α β : Type} (fs : FS) (readC : Path → α) (readP : Path → β) (package : α × β)

theorem loadSource_dir {γ : Type} (read : Path → γ) (pkg : γ) (d : Path) (f : Str) (hd : d ∈ fs.dirs)
    (hf : d ++ [f] ∈ fs.files) (hn : d ++ [f] ∉ fs.dirs) :
    loadSource fs read pkg f (some d) = .ok (read (d ++ [f])) := by
  simp [loadSource, buildPath, readOnly, FS.exist, FS.isDir, readText, hd, hf, hn]

theorem loadSource_inv {γ : Type} (read : Path → γ) (pkg : γ) (d : Path) (f : Str) (hd : d ∈ fs.dirs)
    (r : γ) (h : loadSource fs read pkg f (some d) = .ok r) : r = pkg ∨ r = read (d ++ [f]) := by
  have h1 : buildPath fs f (some d) = .ok (some (d ++ [f])) := by
    simp [buildPath, readOnly, FS.exist, FS.isDir, hd]
  unfold loadSource at h
  rw [h1] at h
  by_cases h2 : fs.exist (d ++ [f]) = true
  · by_cases h3 : fs.isDir (d ++ [f]) = true
    · simp [h2, h3, readText] at h
    · simp [h2, h3, readText] at h; exact .inr h.symm
  · simp [h2] at h; exact .inl h.symm

/-- **C243** (partial). With a source directory that has both files, the constants and the parameters are
those of these files; without a source they are those of the package; a source that does not exist is
refused. Conversely, without an error every value comes from a file with the right name, from the package,
or from the path itself. -/
theorem c243_partial (d : Path) :
    (d ∈ fs.dirs → d ++ [c!"baseTypes.h"] ∈ fs.files → d ++ [c!"configuration.c"] ∈ fs.files →
      (∀ p ∈ fs.files, p ∉ fs.dirs) →
      loadBoth fs readC readP package (some d)
        = .ok (readC (d ++ [c!"baseTypes.h"]), readP (d ++ [c!"configuration.c"]))) ∧
    loadBoth fs readC readP package none = .ok package ∧
    (d ∉ fs.dirs → d ∉ fs.files →
      loadBoth fs readC readP package (some d) = .error (.named "NonExistentPathError")) ∧
    (∀ r, loadBoth fs readC readP package (some d) = .ok r →
      (d ∈ fs.dirs ∧ (r.1 = package.1 ∨ r.1 = readC (d ++ [c!"baseTypes.h"])) ∧
        (r.2 = package.2 ∨ r.2 = readP (d ++ [c!"configuration.c"]))) ∨
      (d ∈ fs.files ∧ r = (readC d, readP d))) := by
  refine ⟨?_, rfl, ?_, ?_⟩
  · intro h1 h2 h3 h4
    simp [loadBoth, loadSource_dir fs readC package.1 d _ h1 h2 (h4 _ h2),
      loadSource_dir fs readP package.2 d _ h1 h3 (h4 _ h3)]
  · intro h1 h2
    simp [loadBoth, loadSource, buildPath, readOnly, FS.exist, h1, h2]
  · intro r hr
    by_cases h1 : d ∈ fs.dirs
    · left
      refine ⟨h1, ?_⟩
      cases ha : loadSource fs readC package.1 c!"baseTypes.h" (some d) with
      | error e => simp only [loadBoth, ha] at hr; cases hr
      | ok a =>
        cases hb : loadSource fs readP package.2 c!"configuration.c" (some d) with
        | error e => simp only [loadBoth, ha, hb] at hr; cases hr
        | ok b =>
          simp only [loadBoth, ha, hb] at hr
          injection hr with hr
          subst hr
          exact ⟨loadSource_inv fs readC _ d _ h1 a ha, loadSource_inv fs readP _ d _ h1 b hb⟩
    · by_cases h2 : d ∈ fs.files
      · right
        refine ⟨h2, ?_⟩
        simp [loadBoth, loadSource, buildPath, readOnly, FS.exist, FS.isDir, readText, h1, h2] at hr
        exact hr.symm
      · simp [loadBoth, loadSource, buildPath, readOnly, FS.exist, h1, h2] at hr

/-- **C243** fails: a source directory without the files is taken for the package, and with only one of
them the other comes from the package; if the source is a file, the constants and the parameters are both
read from it. -/
theorem c243_counterexample (d : Path) :
    (d ∈ fs.dirs → d ++ [c!"baseTypes.h"] ∉ fs.dirs → d ++ [c!"configuration.c"] ∉ fs.dirs →
      d ++ [c!"baseTypes.h"] ∉ fs.files →
      (d ++ [c!"configuration.c"] ∉ fs.files →
        loadBoth fs readC readP package (some d) = .ok package) ∧
      (d ++ [c!"configuration.c"] ∈ fs.files →
        loadBoth fs readC readP package (some d)
          = .ok (package.1, readP (d ++ [c!"configuration.c"])))) ∧
    (d ∉ fs.dirs → d ∈ fs.files →
      loadBoth fs readC readP package (some d) = .ok (readC d, readP d)) := by
  constructor
  · intro h1 h2 h3 h4
    constructor
    · intro h5
      simp [loadBoth, loadSource, buildPath, readOnly, FS.exist, FS.isDir, readText, h1, h2, h3, h4, h5]
    · intro h5
      simp [loadBoth, loadSource, buildPath, readOnly, FS.exist, FS.isDir, readText, h1, h2, h3, h4, h5]
  · intro h1 h2
    simp [loadBoth, loadSource, buildPath, readOnly, FS.exist, FS.isDir, readText, h1, h2]

end

/-- A source directory, one without files, and a file. -/
def sampleFS : FS :=
  ⟨[[c!"src"], [c!"run"]], [[c!"src", c!"baseTypes.h"], [c!"src", c!"configuration.c"]]⟩

example : loadBoth sampleFS id id ([], []) (some [c!"src"])
    = .ok ([c!"src", c!"baseTypes.h"], [c!"src", c!"configuration.c"]) := by decide +kernel

example : loadBoth sampleFS id id ([], []) (some [c!"run"]) = .ok ([], []) := by decide +kernel

example : loadBoth sampleFS id id ([], []) (some [c!"src", c!"configuration.c"])
    = .ok ([c!"src", c!"configuration.c"], [c!"src", c!"configuration.c"]) := by decide +kernel

end Verif.Files
