import Mathlib.Data.List.Induction
import Mathlib.Tactic.Tauto
import Verif.Files.Model

/-!
# Properties of path searches, the instance cache, viewers and read-only paths
(C66, C67, C68, C105, C106)
-/

set_option linter.unusedSimpArgs false
set_option linter.unusedSectionVars false

namespace Verif.Files

open Verif.Py

/-! ## C66 -/

/-- There is something called `file` in the directory `p`. -/
def Has (fs : FS) (p file : Path) : Prop := p ∈ fs.dirs ∧ (p ++ file ∈ fs.dirs ∨ p ++ file ∈ fs.files)

/-- The path exists. -/
def Exists' (fs : FS) (p : Path) : Prop := p ∈ fs.dirs ∨ p ∈ fs.files

instance (fs : FS) (p file : Path) : Decidable (Has fs p file) := by unfold Has; infer_instance
instance (fs : FS) (p : Path) : Decidable (Exists' fs p) := by unfold Exists'; infer_instance

theorem search_cons (fs : FS) (p : Path) (ps : List Path) (file : Path) :
    search fs (p :: ps) file
      = if ¬ Exists' fs p then .error (.named "NonExistentPathError")
        else if Has fs p file then .ok (some (p ++ file)) else search fs ps file := by
  rw [search]
  unfold readOnly FS.exist FS.isDir Exists' Has
  by_cases h1 : p ∈ fs.dirs
  · simp only [h1, true_or, decide_true, if_true, not_true, if_false, true_and]
    by_cases h2 : p ++ file ∈ fs.dirs ∨ p ++ file ∈ fs.files <;> simp [h2]
  · by_cases h2 : p ∈ fs.files <;> simp [h1, h2]

/-- C66, partial. Searching directories gives the first one that contains the file, whatever comes
after it, if all paths before it exist; nothing if all exist and none contains it; and an exception
if a path that does not exist comes before any that contains the file.  Searching an existing
directory for a list of templates gives the first that exists, or nothing.

Missing: paths that do not exist are not skipped (`c66_counterexample`). -/
theorem c66_partial (fs : FS) (file : Path) :
    (∀ before p after, (∀ q ∈ before, Exists' fs q ∧ ¬ Has fs q file) → Has fs p file →
      search fs (before ++ p :: after) file = .ok (some (p ++ file)))
    ∧ (∀ ps, (∀ q ∈ ps, Exists' fs q ∧ ¬ Has fs q file) → search fs ps file = .ok none)
    ∧ (∀ before p after, (∀ q ∈ before, Exists' fs q ∧ ¬ Has fs q file) → ¬ Exists' fs p →
      search fs (before ++ p :: after) file = .error (.named "NonExistentPathError"))
    ∧ ∀ {ι : Type} (name : ι) (d : Path), Exists' fs d →
      (∀ (before : List (ι → Str)) (t : ι → Str) (after : List (ι → Str)),
        (∀ s ∈ before, ¬ Exists' fs (d ++ [s name])) → Exists' fs (d ++ [t name]) →
        findByTemplate fs (before ++ t :: after) name d = .ok (some (d ++ [t name])))
      ∧ (∀ ts : List (ι → Str), (∀ s ∈ ts, ¬ Exists' fs (d ++ [s name])) → findByTemplate fs ts name d = .ok none) := by
  have skip : ∀ before rest, (∀ q ∈ before, Exists' fs q ∧ ¬ Has fs q file) →
      search fs (before ++ rest) file = search fs rest file := by
    intro before rest
    induction before with
    | nil => intro _; rfl
    | cons b bs ih =>
      intro h
      obtain ⟨h1, h2⟩ := h b (List.mem_cons_self ..)
      rw [List.cons_append, search_cons]
      simp only [h1, h2, not_true, if_false]
      exact ih (fun q hq => h q (List.mem_cons_of_mem _ hq))
  refine ⟨?_, ?_, ?_, ?_⟩
  · intro before p after hb hp
    rw [skip _ _ hb, search_cons]
    have : Exists' fs p := Or.inl hp.1
    simp [this, hp]
  · intro ps hp
    have := skip ps [] hp
    rw [List.append_nil] at this
    rw [this]; rfl
  · intro before p after hb hp
    rw [skip _ _ hb, search_cons]
    simp [hp]
  · intro ι name d hd
    have hr : ∀ ts : List (ι → Str),
        findByTemplate fs ts name d = .ok (tryTemplates fs d name ts) := by
      intro ts
      have he : fs.exist d = true := by unfold FS.exist; exact decide_eq_true hd
      simp [findByTemplate, readOnly, he]
    have hex : ∀ p, fs.exist p = decide (Exists' fs p) := fun p => rfl
    have skip' : ∀ (before rest : List (ι → Str)), (∀ s ∈ before, ¬ Exists' fs (d ++ [s name])) →
        tryTemplates fs d name (before ++ rest) = tryTemplates fs d name rest := by
      intro before rest
      induction before with
      | nil => intro _; rfl
      | cons b bs ih =>
        intro h
        have h1 := h b (List.mem_cons_self ..)
        rw [List.cons_append, tryTemplates, hex]
        simp only [h1, decide_false, Bool.false_eq_true, if_false]
        exact ih (fun q hq => h q (List.mem_cons_of_mem _ hq))
    constructor
    · intro before t after hb ht
      rw [hr, skip' _ _ hb, tryTemplates, hex]
      simp [ht]
    · intro ts hts
      have := skip' ts [] hts
      rw [List.append_nil] at this
      rw [hr, this]; rfl

/-- A file system with one directory and two files. -/
def smallFS : FS where
  dirs := [[c!"data"], [c!"empty"]]
  files := [[c!"data", c!"obs000001.nc"], [c!"data", c!"flux000001.nc"]]

example : search smallFS [[c!"empty"], [c!"data"]] [c!"obs000001.nc"]
      = .ok (some [c!"data", c!"obs000001.nc"])
    ∧ Has smallFS [c!"data"] [c!"obs000001.nc"]
    ∧ Exists' smallFS [c!"empty"] ∧ ¬ Has smallFS [c!"empty"] [c!"obs000001.nc"]
    ∧ search smallFS [[c!"empty"]] [c!"obs000001.nc"] = .ok none := by decide +kernel

/-- C66: the file exists in the second path; the first does not exist. -/
theorem c66_counterexample :
    Has smallFS [c!"data"] [c!"obs000001.nc"]
    ∧ search smallFS [[c!"missing"], [c!"data"]] [c!"obs000001.nc"]
      = .error (.named "NonExistentPathError") := by decide +kernel

/-! ## C67 -/

section
variable {κ : Type}

/-- Keys are those of objects created in the past, and no two share an object. -/
structure Pool.Inv (p : Pool κ) : Prop where
  old : ∀ k o, p.instances.get? k = some o → o.serial < p.created
  inj : ∀ k k' o o', p.instances.get? k = some o → p.instances.get? k' = some o' →
    o.serial = o'.serial → k = k'
  keys : ∀ k o, p.instances.get? k = some o → k ≠ .other

theorem generateKey_ok {a k : Arg} (h : generateKey a = .ok k) : k = a ∧ a ≠ .other := by
  cases a <;> simp [generateKey] at h <;> exact ⟨h.symm, by simp⟩

theorem Pool.call_spec (init : κ → Arg → Option Err) {p : Pool κ} (hp : p.Inv) (cls : κ) (a : Arg) :
    ((p.call init cls a).2).Inv
    ∧ (∀ k o, p.instances.get? k = some o → (p.call init cls a).2.instances.get? k = some o)
    ∧ (∀ o, (p.call init cls a).1 = .ok o →
        (p.call init cls a).2.instances.get? a = some o ∧ a ≠ .other)
    ∧ (∀ o, p.instances.get? a = some o → (p.call init cls a).1 = .ok o)
    ∧ (∀ k o, (p.call init cls a).2.instances.get? k = some o →
        p.instances.get? k = some o ∨ k = a ∧ o.cls = cls) := by
  unfold Pool.call
  cases hg : generateKey a with
  | error e =>
    refine ⟨hp, fun k o h => h, fun o h => by simp at h, ?_, fun k o h => Or.inl h⟩
    intro o ho
    have := hp.keys _ _ ho
    cases a <;> simp [generateKey] at hg; exact absurd rfl this
  | ok key =>
    obtain ⟨rfl, hne⟩ := generateKey_ok hg
    simp only
    cases hk : p.instances.get? key with
    | some o =>
      refine ⟨hp, fun k o h => h, ?_, ?_, fun k o h => Or.inl h⟩
      · intro o' h; injection h with h; subst h; exact ⟨hk, hne⟩
      · intro o' h; injection h with h; subst h; rfl
    | none =>
      simp only
      cases hi : init cls key with
      | some e =>
        exact ⟨hp, fun k o h => h, fun o h => by simp at h, fun o h => by simp at h,
          fun k o h => Or.inl h⟩
      | none =>
        refine ⟨⟨?_, ?_, ?_⟩, ?_, ?_, fun o h => by simp at h, ?_⟩
        · intro k o ho
          simp only [Dict.get?_set] at ho
          split at ho
          · injection ho with ho; subst ho; simp
          · exact Nat.lt_succ_of_lt (hp.old k o ho)
        · intro k k' o o' ho ho' hs
          simp only [Dict.get?_set] at ho ho'
          split at ho <;> split at ho'
          · next e1 e2 => exact e1.symm.trans e2
          · injection ho with ho; subst ho
            have := hp.old _ _ ho'; simp at hs; omega
          · injection ho' with ho'; subst ho'
            have := hp.old _ _ ho; simp at hs; omega
          · exact hp.inj k k' o o' ho ho' hs
        · intro k o ho
          simp only [Dict.get?_set] at ho
          split at ho
          · next e => exact e ▸ hne
          · exact hp.keys k o ho
        · intro k o ho
          simp only [Dict.get?_set]
          have : key ≠ k := by intro e; subst e; rw [hk] at ho; simp at ho
          simp [this, ho]
        · intro o ho
          injection ho with ho; subst ho
          exact ⟨by simp, hne⟩
        · intro k o ho
          simp only [Dict.get?_set] at ho
          split at ho
          · next e => injection ho with ho; subst ho; exact Or.inr ⟨e.symm, rfl⟩
          · exact Or.inl ho

theorem Pool.inv_empty : (Pool.empty : Pool κ).Inv := by
  constructor <;> simp [Pool.empty]

theorem Pool.run_spec (init : κ → Arg → Option Err) (calls : List (κ × Arg)) :
    ∀ p : Pool κ, p.Inv → (p.run init calls).Inv
      ∧ ∀ k o, p.instances.get? k = some o → (p.run init calls).instances.get? k = some o := by
  induction calls with
  | nil => intro p hp; exact ⟨hp, fun k o h => h⟩
  | cons c cs ih =>
    intro p hp
    obtain ⟨h1, h2, -⟩ := Pool.call_spec init hp c.1 c.2
    obtain ⟨i1, i2⟩ := ih _ h1
    exact ⟨i1, fun k o h => i2 k o (h2 k o h)⟩

theorem Pool.run_cls (init : κ → Arg → Option Err) (cls : κ) (calls : List (κ × Arg))
    (hc : ∀ c ∈ calls, c.1 = cls) :
    ∀ p : Pool κ, p.Inv → (∀ k o, p.instances.get? k = some o → o.cls = cls) →
      ∀ k o, (p.run init calls).instances.get? k = some o → o.cls = cls := by
  induction calls with
  | nil => intro p _ h; exact h
  | cons c cs ih =>
    intro p hp h
    obtain ⟨h1, -, -, -, h2⟩ := Pool.call_spec init hp c.1 c.2
    refine ih (fun c' h' => hc c' (List.mem_cons_of_mem _ h')) _ h1 ?_
    intro k o ho
    rcases h2 k o ho with h' | ⟨-, h'⟩
    · exact h k o h'
    · rw [h', hc c (List.mem_cons_self ..)]

/-- C67, partial. After any history of constructor calls, of any classes, two further successful
calls with calls between them: equal path arguments give the same object, and unequal ones different
objects.  If only one class was ever used, the object is of that class.

Missing: the cache is shared by all classes with this metaclass, so that with two classes the object
may be of the wrong one (`c67_counterexample`). -/
theorem c67_partial (init : κ → Arg → Option Err) (before between : List (κ × Arg))
    (cls cls' : κ) (a b : Arg) (o o' : Obj κ)
    (h1 : (((Pool.empty : Pool κ).run init before).call init cls a).1 = .ok o)
    (h2 : (((((Pool.empty : Pool κ).run init before).call init cls a).2.run init between).call
      init cls' b).1 = .ok o') :
    (a = b ↔ o = o')
    ∧ ((∀ c ∈ before ++ (cls, a) :: between, c.1 = cls') → o'.cls = cls') := by
  have i0 := (Pool.run_spec init before _ (Pool.inv_empty (κ := κ))).1
  obtain ⟨i1, -, i2, -, -⟩ := Pool.call_spec init i0 cls a
  obtain ⟨j1, j2⟩ := i2 o h1
  obtain ⟨k1, k2⟩ := Pool.run_spec init between _ i1
  obtain ⟨l1, l2, l3, l4, l5⟩ := Pool.call_spec init k1 cls' b
  have hb := (l3 o' h2).1
  have ha := l2 _ _ (k2 _ _ j1)
  refine ⟨⟨?_, ?_⟩, ?_⟩
  · rintro rfl
    rw [hb] at ha; injection ha with ha; exact ha.symm
  · rintro rfl
    exact l1.inj _ _ _ _ ha hb rfl
  · intro hc
    have hall := Pool.run_cls init cls' (before ++ (cls, a) :: between) hc _
      (Pool.inv_empty (κ := κ)) (by simp [Pool.empty])
    have e : (Pool.empty : Pool κ).run init (before ++ (cls, a) :: between)
        = (((Pool.empty : Pool κ).run init before).call init cls a).2.run init between := by
      simp [Pool.run, List.foldl_append]
    rw [e] at hall
    rcases l5 b o' hb with h | ⟨-, h⟩
    · exact hall _ _ h
    · exact h

end

/-- C67: two classes that share the metaclass (`false` and `true`) and one path. -/
theorem c67_counterexample :
    (((Pool.empty : Pool Bool).run (fun _ _ => none) [(false, .str c!"a.nc")]).call
      (fun _ _ => none) true (.str c!"a.nc")).1 = .ok ⟨0, false⟩ := by decide +kernel

example : (((Pool.empty : Pool Bool).run (fun _ _ => none) [(true, .str c!"a.nc")]).call
      (fun _ _ => none) true (.path [c!"a.nc"])).1 = .ok ⟨1, true⟩
    ∧ (((Pool.empty : Pool Bool).run (fun _ _ => none)
        [(true, .str c!"a.nc"), (true, .str c!"b.nc")]).call
      (fun _ _ => none) true (.str c!"a.nc")).1 = .ok ⟨0, true⟩ := by decide +kernel

/-! ## C68 and C106 -/

section
variable {ν : Type}

theorem get?_use (m : ViewerMap ν) (s s' : Suffix) (vs : List (Str × ν)) :
    (use m s vs).2.get? s' = if s = s' then (m.get? s').map (fun d => d.update vs) else m.get? s' := by
  unfold use
  cases hs : m.get? s with
  | none =>
    have : (if vs = [] then (Except.ok () (ε := Err), m) else (Except.error Err.typeError, m)).2 = m := by
      split <;> rfl
    simp only [this]
    split
    · next e => subst e; rw [hs]; rfl
    · rfl
  | some d =>
    simp only [Dict.get?_set]
    split
    · next e => subst e; rw [hs]; rfl
    · rfl

/-- C68, partial. Replacing viewers of a dataset of a supported type has the effect asked for on that
dataset, and none on datasets of other file types, now and after any further updates of datasets of
other types.

Missing: datasets of the same file type (all datasets, at present) are affected: exactly the same
viewers are seen from every one of them (`c68_counterexample`). -/
theorem c68_partial (m : ViewerMap ν) (s : Suffix) (vs : List (Str × ν))
    (hs : (m.get? s).isSome) (later : List (Suffix × List (Str × ν))) (hl : ∀ u ∈ later, u.1 ≠ s) :
    (∀ g, getViewer (useAll (use m s vs).2 later) s g
      = match Dict.get? vs.reverse g with
        | some v => .ok v
        | none => getViewer m s g)
    ∧ ∀ s' g, s' ≠ s → getViewer (use m s vs).2 s' g = getViewer m s' g := by
  constructor
  · intro g
    have hrest : ∀ m' : ViewerMap ν, (useAll m' later).get? s = m'.get? s := by
      clear hs
      induction later with
      | nil => intro m'; rfl
      | cons u us ih =>
        intro m'
        show (useAll (use m' u.1 u.2).2 us).get? s = _
        rw [ih (fun w hw => hl w (List.mem_cons_of_mem _ hw)), get?_use,
          if_neg (hl u (List.mem_cons_self ..))]
    obtain ⟨d, hd⟩ := Option.isSome_iff_exists.1 hs
    unfold getViewer
    rw [hrest, get?_use, if_pos rfl, hd]
    simp only [Option.map_some, Dict.get?_update]
    cases Dict.get? vs.reverse g <;> rfl
  · intro s' g h
    unfold getViewer
    rw [get?_use, if_neg (Ne.symm h)]

end

/-- The table as shipped (datafile.py 135-140); 0 and 1 stand for the two classes of viewers. -/
def shipped : ViewerMap Nat := [(c!".nc", [(c!"variables", 0), (c!"axes", 1)])]

/-- C68: a dataset `b.nc`, of which nothing was asked, is seen through the viewer installed on
another dataset `a.nc` (both have the suffix `.nc`). -/
theorem c68_counterexample :
    getViewer shipped c!".nc" c!"variables" = .ok 0
    ∧ getViewer (use shipped c!".nc" [(c!"variables", 7)]).2 c!".nc" c!"variables" = .ok 7 := by
  decide +kernel

example : (shipped.get? c!".nc").isSome ∧ getViewer shipped c!".nc" c!"axes" = .ok 1
    ∧ getViewer (use shipped c!".nc" [(c!"variables", 7)]).2 c!".nc" c!"axes" = .ok 1
    ∧ getViewer shipped c!".nc" c!"other" = .error .keyError := by decide +kernel

/-- C106, partial. Nothing can be read from a dataset of an unsupported file type, and its viewers
cannot be replaced: both raise `TypeError`.

Missing: it should be rejected on creation, and is not (`c106_counterexample`). -/
theorem c106_partial {ν : Type} (m : ViewerMap ν) (s : Suffix) (hs : m.get? s = none) :
    (∀ g, getViewer m s g = .error .typeError)
    ∧ ∀ v vs, (use m s (v :: vs)).1 = .error .typeError ∧ (use m s (v :: vs)).2 = m := by
  refine ⟨fun g => by simp [getViewer, hs], fun v vs => by simp [use, hs]⟩

/-- C106: a text file is accepted; the failure comes when it is used. -/
theorem c106_counterexample :
    createViewers shipped c!".txt" = .ok ()
    ∧ getViewer shipped c!".txt" c!"variables" = .error .typeError := by decide +kernel

/-! ## C105 -/

/-- A way of writing that a read-only path documents to refuse: the two `write` methods and `open`
with mode `'w'`. -/
def Documented : Write → Prop
  | .bytes => True
  | .text => True
  | .openPositional mode => mode = c!"w"
  | .openKeyword mode => mode = c!"w"

/-- C105, partial. The methods of the class `ReadOnlyPath` refuse `write_bytes`, `write_text` and
`open('w')`.

Missing: `open(mode='w')`; and all of it is without effect, since creating a `ReadOnlyPath` gives an
object of another class (`c105_counterexample`). -/
theorem c105_partial (w : Write) (h : Documented w) (hk : ∀ m, w ≠ .openKeyword m) :
    refuses .readOnly w = true := by
  cases w with
  | bytes => rfl
  | text => rfl
  | openPositional m => exact decide_eq_true h
  | openKeyword m => exact absurd rfl (hk m)

example : Documented .text ∧ Documented (.openPositional c!"w") := ⟨trivial, rfl⟩

/-- C105: no way of writing is refused by what `ReadOnlyPath(…)` gives; nor would the class itself
refuse the mode as keyword, or other modes for writing. -/
theorem c105_counterexample :
    (∀ w, refuses classOfNew w = false)
    ∧ refuses .readOnly (.openKeyword c!"w") = false
    ∧ refuses .readOnly (.openPositional c!"a") = false := by
  refine ⟨fun w => rfl, rfl, by decide⟩

end Verif.Files
