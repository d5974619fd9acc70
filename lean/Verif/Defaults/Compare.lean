import Verif.Defaults.Tables

/-!
# Comparing configuration files: property C138

Model of `compare_arguments` (runtime.py 1532-1625) up to the layout of the printed text.
-/

set_option linter.unusedSimpArgs false

namespace Verif.Defaults

open Verif.Py Verif.Runtime

/-! ## Model -/

/-- A path: the names from the root, or from the current directory. -/
abbrev Path := List Str

/-- A configuration file holds, for each parameter that it sets, the text that the comparison shows
(`_format_arg`, runtime.py 1617-1625, of the value that `Interface.config` gives, 875-877). -/
inductive Node where
  | dir
  | file (shown : Dict Str Str)

/-- The disk and the current directory. -/
structure Disk where
  node : Path → Option Node
  cwd : Path

/-- `path.resolve()` of a relative path, from `at_`. -/
def resolveFrom : Path → List Str → Path
  | at_, [] => at_
  | at_, c :: cs =>
    if c = c!"." then resolveFrom at_ cs
    else if c = c!".." then resolveFrom at_.dropLast cs
    else resolveFrom (at_ ++ [c]) cs

/-- The configuration file of `Interface(path)` (runtime.py 825-860, 512): the path is relative to the
current directory. -/
def Disk.openAt (W : Disk) (p : List Str) : Res (Dict Str Str) :=
  match W.node (resolveFrom W.cwd p) with
  | none => .error (.named "NonExistentPathError")
  | some .dir => .error (.named "IsADirectoryError")
  | some (.file d) => .ok d

/-- The names that two paths share from the root. -/
def shared : Path → Path → Path
  | a :: p, b :: q => if a = b then a :: shared p q else []
  | _, _ => []

/-- `os.path.commonpath` of at least one absolute path (runtime.py 1611). -/
def commonPath : List Path → Path
  | [] => []
  | [p] => p
  | p :: q :: ps => shared p (commonPath (q :: ps))

/-- `os.path.relpath(path, start=common)`, where `common` leads to `path` (runtime.py 1614). -/
def relPath (common p : Path) : List Str :=
  if p.drop common.length = [] then [c!"."] else p.drop common.length

/-- `_get_relative_paths` (runtime.py 1608-1614) of existing files, given by their distinct absolute
paths in the order of the set.  The common path of absolute paths is never empty text. -/
def relativePaths (files : List Path) : Res (List (List Str)) :=
  if files = [] then .error .valueError
  else .ok (files.map (relPath (commonPath files)))

/-- The columns of a group: a relative path each, and `default`. -/
abbrev Row := Dict (List Str) (Option Str)

/-- One entry of `built` (runtime.py 1591-1602). -/
def buildRow (diff : Bool) (default : Dict Str Str) (targets : List (List Str × Dict Str Str)) (key : Str) :
    Res Row :=
  let current : Row := Dict.ofPairs (targets.map (fun t => (t.1, t.2.get? key)))
  match current.values with
  | [] => .error .indexError
  | v0 :: vs =>
    if !diff || (v0 :: vs).any (fun v => decide (v ≠ v0)) then
      match default.get? key with
      | none => .error .keyError
      | some d => .ok (Dict.update [([c!"default"], some d)] current)
    else .ok []

/-- A list of results, or the first error. -/
def each {α β : Type} (f : α → Res β) : List α → Res (List β)
  | [] => .ok []
  | a :: as => match f a with
    | .error e => .error e
    | .ok b => match each f as with
      | .error e => .error e
      | .ok bs => .ok (b :: bs)

/-- `_build_arg_dict` (runtime.py 1580-1605). `keys` are the sorted names of the parameters, `default`
the texts of the default values. -/
def buildArgs (W : Disk) (diff : Bool) (keys : List Str) (default : Dict Str Str) (files : List Path) :
    Res (Dict Str Row) :=
  match relativePaths files with
  | .error e => .error e
  | .ok paths =>
    match each (fun p => (W.openAt p).map (fun d => (p, d))) paths with
    | .error e => .error e
    | .ok targets =>
      match each (fun k => (buildRow diff default targets k).map (fun r => (k, r))) keys with
      | .error e => .error e
      | .ok built => .ok (if diff then built.filter (fun e => e.2 ≠ []) else built)

/-- `compare_arguments` (runtime.py 1532-1577): the groups that are printed.  `next` raises
`StopIteration` if there is no group with columns. -/
def compareArguments (W : Disk) (diff : Bool) (keys : List Str) (default : Dict Str Str)
    (files : List Path) : Res (Dict Str Row) :=
  match buildArgs W diff keys default files with
  | .error e => .error e
  | .ok args => if args.any (fun e => decide (e.2 ≠ [])) then .ok args else .error (.named "StopIteration")

/-! ## Specification -/

/-- What a file says about a parameter. -/
def Disk.says (W : Disk) (f : Path) (k : Str) : Option Str :=
  match W.node f with
  | some (.file d) => d.get? k
  | _ => none

/-- Some two of the files differ about the parameter. -/
def Differ (W : Disk) (files : List Path) (k : Str) : Prop :=
  ∃ f ∈ files, ∃ g ∈ files, W.says f k ≠ W.says g k

instance (W : Disk) (files : List Path) (k : Str) : Decidable (Differ W files k) := by
  unfold Differ; infer_instance

/-- A group shows the default and what each file says, in columns that tell the files apart. -/
def Shows (W : Disk) (default : Dict Str Str) (files : List Path) (k : Str) (row : Row) : Prop :=
  row.get? [c!"default"] = some (default.get? k) ∧
  ∃ column : Path → List Str, (∀ f ∈ files, W.cwd ++ column f = f) ∧
    ∀ f ∈ files, row.get? (column f) = some (W.says f k)

/-! ## Lemmas -/

theorem shared_prefix (p q : Path) : shared p q <+: p ∧ shared p q <+: q := by
  induction p generalizing q with
  | nil => cases q <;> simp [shared]
  | cons a p ih =>
    cases q with
    | nil => simp [shared]
    | cons b q =>
      simp only [shared]
      split
      · rename_i h; subst h
        exact ⟨List.cons_prefix_cons.2 ⟨rfl, (ih q).1⟩, List.cons_prefix_cons.2 ⟨rfl, (ih q).2⟩⟩
      · simp

theorem commonPath_prefix (files : List Path) : ∀ f ∈ files, commonPath files <+: f := by
  induction files with
  | nil => simp
  | cons p ps ih =>
    cases ps with
    | nil => intro f hf; simp at hf; subst hf; simp [commonPath]
    | cons q ps =>
      intro f hf
      have hs := shared_prefix p (commonPath (q :: ps))
      rcases List.mem_cons.1 hf with rfl | hf
      · exact hs.1
      · exact hs.2.trans (ih f hf)

theorem resolveFrom_names (at_ : Path) (cs : List Str) (h : ∀ c ∈ cs, c ≠ c!"." ∧ c ≠ c!"..") :
    resolveFrom at_ cs = at_ ++ cs := by
  induction cs generalizing at_ with
  | nil => simp [resolveFrom]
  | cons c cs ih =>
    have := h c (by simp)
    rw [resolveFrom, if_neg this.1, if_neg this.2, ih _ (fun c hc => h c (by simp [hc]))]
    simp

theorem each_ok {α β : Type} {f : α → Res β} {g : α → β} {l : List α} (h : ∀ a ∈ l, f a = .ok (g a)) :
    each f l = .ok (l.map g) := by
  induction l with
  | nil => rfl
  | cons a as ih =>
    rw [each, h a (by simp), ih (fun b hb => h b (by simp [hb]))]
    rfl

theorem ofPairs_map {α κ ν : Type} [DecidableEq κ] {l : List α} {k : α → κ} {v : α → ν} (hl : l.Nodup)
    (hk : ∀ a ∈ l, ∀ b ∈ l, k a = k b → a = b) :
    Dict.ofPairs (l.map (fun a => (k a, v a))) = l.map (fun a => (k a, v a)) := by
  refine Dict.ofPairs_of_nodup ?_
  have : Dict.keys (l.map (fun a => (k a, v a))) = l.map k := by simp [Dict.keys, Function.comp_def]
  rw [this]
  exact List.Nodup.map_on (fun a ha b hb => hk a ha b hb) hl

/-! ## C138 -/

/-- The command is started in the deepest directory that contains the files, none of which is called
`default` there. -/
structure Proper (W : Disk) (files : List Path) : Prop where
  some_file : files ≠ []
  distinct : files.Nodup
  here : commonPath files = W.cwd
  here_dir : W.node W.cwd = some .dir
  are_files : ∀ f ∈ files, ∃ d, W.node f = some (.file d)
  names : ∀ f ∈ files, ∀ c ∈ f, c ≠ c!"." ∧ c ≠ c!".."
  not_default : W.cwd ++ [c!"default"] ∉ files

/-- **C138 (part).** Started in the deepest directory that contains the files, the comparison prints one
group for every parameter, in the given order, or in mode `diff` one for every parameter about which
files differ; each shows the default and the value in each file. In mode `diff` it fails with
`StopIteration` if there is no difference. -/
theorem c138_partial (W : Disk) (diff : Bool) (keys : List Str) (default : Dict Str Str)
    (files : List Path) (hp : Proper W files) (hk : ∀ k ∈ keys, k ∈ default.keys) :
    let listed := keys.filter (fun k => !diff || decide (Differ W files k))
    (listed ≠ [] → ∃ groups, compareArguments W diff keys default files = .ok groups ∧
      groups.keys = listed ∧ ∀ k row, (k, row) ∈ groups → Shows W default files k row) ∧
    (listed = [] → compareArguments W diff keys default files = .error (.named "StopIteration")) := by
  intro listed
  have hpre := commonPath_prefix files
  rw [hp.here] at hpre
  have hcol : ∀ f ∈ files, f.drop W.cwd.length ≠ [] ∧ W.cwd ++ f.drop W.cwd.length = f := by
    intro f hf
    obtain ⟨t, rfl⟩ := hpre f hf
    simp only [List.drop_left, and_true]
    rintro rfl
    obtain ⟨d, hd⟩ := hp.are_files _ hf
    rw [List.append_nil, hp.here_dir] at hd
    cases hd
  have hrel : ∀ f ∈ files, relPath W.cwd f = f.drop W.cwd.length := fun f hf => by
    rw [relPath, if_neg (hcol f hf).1]
  have hinj : ∀ f ∈ files, ∀ g ∈ files, relPath W.cwd f = relPath W.cwd g → f = g := by
    intro f hf g hg h
    rw [hrel f hf, hrel g hg] at h
    rw [← (hcol f hf).2, ← (hcol g hg).2, h]
  let content : Path → Dict Str Str := fun f => match W.node f with
    | some (.file d) => d
    | _ => []
  have hsays : ∀ f ∈ files, ∀ k, (content f).get? k = W.says f k := by
    intro f hf k
    obtain ⟨d, hd⟩ := hp.are_files f hf
    simp only [content, Disk.says, hd]
  have hopen : ∀ f ∈ files, W.openAt (relPath W.cwd f) = .ok (content f) := by
    intro f hf
    obtain ⟨d, hd⟩ := hp.are_files f hf
    have hr : resolveFrom W.cwd (relPath W.cwd f) = f := by
      rw [hrel f hf, resolveFrom_names _ _ (fun c hc => hp.names f hf c (List.mem_of_mem_drop hc)),
        (hcol f hf).2]
    rw [Disk.openAt, hr, hd]
    simp only [content, hd]
  let targets := files.map (fun f => (relPath W.cwd f, content f))
  have htargets : each (fun p => (W.openAt p).map (fun d => (p, d))) (files.map (relPath W.cwd))
      = .ok targets := by
    have : ∀ l : List Path, (∀ f ∈ l, f ∈ files) →
        each (fun p => (W.openAt p).map (fun d => (p, d))) (l.map (relPath W.cwd))
          = .ok (l.map (fun f => (relPath W.cwd f, content f))) := by
      intro l
      induction l with
      | nil => intro _; rfl
      | cons f l ih =>
        intro h
        rw [List.map_cons, each, hopen f (h f (by simp)), Except.map, ih (fun g hg => h g (by simp [hg]))]
        rfl
    exact this files (fun f hf => hf)
  -- one group
  have hcurrent : ∀ k, Dict.ofPairs (targets.map (fun t => (t.1, t.2.get? k)))
      = files.map (fun f => (relPath W.cwd f, W.says f k)) := by
    intro k
    have e : targets.map (fun t => (t.1, t.2.get? k))
        = files.map (fun f => (relPath W.cwd f, (content f).get? k)) := by
      simp [targets, Function.comp_def]
    rw [e, ofPairs_map hp.distinct hinj]
    exact List.map_congr_left (fun f hf => by rw [hsays f hf])
  obtain ⟨f0, fs, hfs⟩ := List.exists_cons_of_ne_nil hp.some_file
  let row : Str → Row := fun k => if !diff || decide (Differ W files k) then
    Dict.update [([c!"default"], default.get? k)] (files.map (fun f => (relPath W.cwd f, W.says f k)))
    else []
  have hdiffer : ∀ k, ((files.map (fun f => W.says f k)).any (fun v => decide (v ≠ W.says f0 k)))
      = decide (Differ W files k) := by
    intro k
    rw [Bool.eq_iff_iff, List.any_eq_true, decide_eq_true_eq]
    constructor
    · rintro ⟨v, hv, h⟩
      obtain ⟨f, hf, rfl⟩ := List.mem_map.1 hv
      exact ⟨f, hf, f0, by rw [hfs]; simp, by simpa using h⟩
    · rintro ⟨f, hf, g, hg, h⟩
      by_cases h1 : W.says f k = W.says f0 k
      · refine ⟨_, List.mem_map.2 ⟨g, hg, rfl⟩, ?_⟩
        simp only [decide_eq_true_eq]
        intro h2; exact h (h1.trans h2.symm)
      · exact ⟨_, List.mem_map.2 ⟨f, hf, rfl⟩, by simpa using h1⟩
  have hrow : ∀ k ∈ keys, buildRow diff default targets k = .ok (row k) := by
    intro k hkk
    obtain ⟨d, hd⟩ := Option.isSome_iff_exists.1 ((Dict.get?_isSome_iff _ _).2 (hk k hkk))
    unfold buildRow
    simp only [hcurrent k]
    have hv : Dict.values (files.map (fun f => (relPath W.cwd f, W.says f k)))
        = files.map (fun f => W.says f k) := by simp [Dict.values, Function.comp_def]
    rw [hv]
    have hc : files.map (fun f => W.says f k) = W.says f0 k :: fs.map (fun f => W.says f k) := by
      rw [hfs]; rfl
    have hd' := hdiffer k
    rw [hc] at hd' ⊢
    simp only [hd', hd, row]
    split <;> rfl
  have hne : ∀ k, row k ≠ [] ↔ (!diff || decide (Differ W files k)) = true := by
    intro k
    simp only [row]
    split
    · rename_i h
      simp only [h, iff_true]
      intro h0
      have : [c!"default"] ∈ (Dict.update [([c!"default"], default.get? k)]
          (files.map (fun f => (relPath W.cwd f, W.says f k)))).keys := by
        rw [Dict.mem_keys_update]; left; simp
      rw [h0] at this
      simp at this
    · rename_i h; simp [h]
  have hbuilt : each (fun k => (buildRow diff default targets k).map (fun r => (k, r))) keys
      = .ok (keys.map (fun k => (k, row k))) :=
    each_ok (g := fun k => (k, row k)) (fun k hkk => by rw [hrow k hkk]; rfl)
  have hfil : (if diff then (keys.map (fun k => (k, row k))).filter (fun e => e.2 ≠ [])
      else keys.map (fun k => (k, row k))) = listed.map (fun k => (k, row k)) := by
    cases diff with
    | false => simp [listed]
    | true =>
      rw [if_pos rfl, List.filter_map]
      congr 1
      refine List.filter_congr (fun k _ => ?_)
      have := hne k
      simp only [Function.comp_apply]
      rw [Bool.eq_iff_iff, decide_eq_true_eq]
      exact this
  have hargs : buildArgs W diff keys default files = .ok (listed.map (fun k => (k, row k))) := by
    unfold buildArgs relativePaths
    rw [if_neg hp.some_file, hp.here]
    simp only [htargets, hbuilt, hfil]
  constructor
  · intro hl
    refine ⟨listed.map (fun k => (k, row k)), ?_, by simp [Dict.keys, Function.comp_def], ?_⟩
    · unfold compareArguments
      rw [hargs]
      simp only
      rw [if_pos]
      obtain ⟨k, ks, hks⟩ := List.exists_cons_of_ne_nil hl
      rw [List.any_eq_true]
      refine ⟨(k, row k), by rw [hks]; simp, ?_⟩
      rw [decide_eq_true_eq]
      have : k ∈ listed := by rw [hks]; simp
      exact (hne k).2 (List.mem_filter.1 this).2
    · intro k r hr
      obtain ⟨k', hk', he⟩ := List.mem_map.1 hr
      simp only [Prod.mk.injEq] at he
      obtain ⟨rfl, rfl⟩ := he
      have hcond := (List.mem_filter.1 hk').2
      have hrk : row k' = Dict.update [([c!"default"], default.get? k')]
          (files.map (fun f => (relPath W.cwd f, W.says f k'))) := by
        simp only [row]; rw [if_pos hcond]
      have hget : ∀ (l : List Path) (d0 : Row), l.Nodup → (∀ f ∈ l, f ∈ files) →
          (∀ c, c ∉ l.map (relPath W.cwd) →
            (d0.update (l.map (fun f => (relPath W.cwd f, W.says f k')))).get? c = d0.get? c) ∧
          (∀ f ∈ l, (d0.update (l.map (fun f => (relPath W.cwd f, W.says f k')))).get? (relPath W.cwd f)
            = some (W.says f k')) := by
        intro l
        induction l with
        | nil => intro d0 _ _; simp
        | cons g l ih =>
          intro d0 hnd hl
          rw [List.nodup_cons] at hnd
          obtain ⟨i1, i2⟩ := ih (d0.set (relPath W.cwd g) (W.says g k')) hnd.2
            (fun f hf => hl f (by simp [hf]))
          simp only [List.map_cons, Dict.update_cons]
          constructor
          · intro c hc
            simp only [List.mem_cons, not_or] at hc
            rw [i1 c hc.2]
            exact Dict.get?_set_ne _ _ (Ne.symm hc.1)
          · intro f hf
            rcases List.mem_cons.1 hf with rfl | hf
            · rw [i1, Dict.get?_set_self]
              intro hm
              obtain ⟨g', hg', e⟩ := List.mem_map.1 hm
              have := hinj g' (hl g' (by simp [hg'])) f (hl f (by simp)) e
              subst this; exact hnd.1 hg'
            · exact i2 f hf
      obtain ⟨g1, g2⟩ := hget files [([c!"default"], default.get? k')] hp.distinct (fun f hf => hf)
      rw [hrk]
      refine ⟨?_, fun f => relPath W.cwd f, fun f hf => ?_, g2⟩
      · rw [g1 [c!"default"]]
        · simp [Dict.get?]
        · intro hm
          obtain ⟨f, hf, e⟩ := List.mem_map.1 hm
          rw [hrel f hf] at e
          have := (hcol f hf).2
          rw [e] at this
          exact hp.not_default (this ▸ hf)
      · show W.cwd ++ relPath W.cwd f = f
        rw [hrel f hf, (hcol f hf).2]
  · intro hl
    unfold compareArguments
    rw [hargs, hl]
    rfl

/-- A directory with two files, which differ in one parameter, and a third like the first. -/
def someDisk (cwd : Path) : Disk where
  cwd := cwd
  node := fun p => match p with
    | [] => some .dir
    | [a] => if a = c!"runs" then some .dir else none
    | [a, b] => if a = c!"runs" ∧ b = c!"x.ini" then some (.file [(c!"eMin", c!"1.0"), (c!"lamo", c!"2.0")])
      else if a = c!"runs" ∧ b = c!"y.ini" then some (.file [(c!"eMin", c!"3.0"), (c!"lamo", c!"2.0")])
      else if a = c!"runs" ∧ b = c!"z.ini" then some (.file [(c!"eMin", c!"1.0"), (c!"lamo", c!"2.0")])
      else none
    | _ => none

/-- The two parameters, and their defaults. -/
def twoKeys : List Str := [c!"eMin", c!"lamo"]

/-- The defaults of the two parameters. -/
def twoDefaults : Dict Str Str := [(c!"eMin", c!"1.0"), (c!"lamo", c!"1.0")]

/-- The two files that differ. -/
def twoFiles : List Path := [[c!"runs", c!"x.ini"], [c!"runs", c!"y.ini"]]

example : compareArguments (someDisk [c!"runs"]) true twoKeys twoDefaults twoFiles
    = .ok [(c!"eMin", [([c!"default"], some c!"1.0"), ([c!"x.ini"], some c!"1.0"),
        ([c!"y.ini"], some c!"3.0")])] := by rfl

example : Proper (someDisk [c!"runs"]) twoFiles where
  some_file := by decide
  distinct := by decide
  here := by decide
  here_dir := rfl
  are_files := by
    intro f hf
    simp only [twoFiles, List.mem_cons, List.not_mem_nil, or_false] at hf
    rcases hf with rfl | rfl
    · exact ⟨_, rfl⟩
    · exact ⟨_, rfl⟩
  names := by decide
  not_default := by decide

/-- **C138, violated.** The comparison of a single file fails, the comparison of files in another directory
fails although they exist, and the search for differences between equal files fails. -/
theorem c138_counterexample :
    compareArguments (someDisk [c!"runs"]) false twoKeys twoDefaults [[c!"runs", c!"x.ini"]]
      = .error (.named "IsADirectoryError") ∧
    compareArguments (someDisk []) false twoKeys twoDefaults twoFiles
      = .error (.named "NonExistentPathError") ∧
    compareArguments (someDisk [c!"runs"]) true twoKeys twoDefaults
      [[c!"runs", c!"x.ini"], [c!"runs", c!"z.ini"]] = .error (.named "StopIteration") :=
  ⟨by rfl, by rfl, by rfl⟩

/-- **C138, violated.** With the current directory elsewhere, another file of the same name is read in
place of the given one. -/
theorem c138_wrong_file (W : Disk) (a b : Str) (x y x' y' : Dict Str Str) (dir : Path) (hab : a ≠ b)
    (ha : a ≠ c!"." ∧ a ≠ c!"..") (hb : b ≠ c!"." ∧ b ≠ c!"..")
    (_hx : W.node (dir ++ [a]) = some (.file x)) (_hy : W.node (dir ++ [b]) = some (.file y))
    (hx' : W.node (W.cwd ++ [a]) = some (.file x')) (hy' : W.node (W.cwd ++ [b]) = some (.file y'))
    (keys : List Str) (default : Dict Str Str) (diff : Bool) :
    buildArgs W diff keys default [dir ++ [a], dir ++ [b]]
      = match each (fun k => (buildRow diff default [([a], x'), ([b], y')] k).map (fun r => (k, r))) keys with
        | .error e => .error e
        | .ok built => .ok (if diff then built.filter (fun e => e.2 ≠ []) else built) := by
  have hs : ∀ d : Path, shared (d ++ [a]) (d ++ [b]) = d := by
    intro d
    induction d with
    | nil => simp [shared, hab]
    | cons c d ih => simp [shared, ih]
  have e1 : W.openAt [a] = .ok x' := by
    rw [Disk.openAt, resolveFrom_names _ _ (by simpa using ha), hx']
  have e2 : W.openAt [b] = .ok y' := by
    rw [Disk.openAt, resolveFrom_names _ _ (by simpa using hb), hy']
  have hr : ∀ c, relPath dir (dir ++ [c]) = [c] := fun c => by simp [relPath]
  have ht : each (fun p => (W.openAt p).map (fun d => (p, d))) [[a], [b]] = .ok [([a], x'), ([b], y')] := by
    simp only [each, e1, e2, Except.map]
  unfold buildArgs relativePaths
  rw [if_neg (by simp)]
  simp only [commonPath, hs, List.map_cons, List.map_nil, hr, ht]

end Verif.Defaults
