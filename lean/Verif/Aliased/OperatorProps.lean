import Verif.Aliased.Operators
import Mathlib.Data.List.Nodup
import Mathlib.Data.List.Perm.Subperm
import Mathlib.Tactic.Tauto

/-!
# C251: a group of aliases combines like a set of names
-/

set_option linter.unusedSimpArgs false
set_option linter.unusedVariables false

namespace Verif.Aliased.Operators

open Verif.Py

/-! ## Specification -/

/-- The names an object stands for: a name for itself, a collection for those of its members. -/
inductive Says : Obj → Name → Prop
  | name (s : Name) : Says (.name s) s
  | list {xs : List Obj} {x : Obj} {s : Name} : x ∈ xs → Says x s → Says (.list xs) s
  | set {names : List Name} {s : Name} : s ∈ names → Says (.set names) s
  | group {names : List Name} {s : Name} : s ∈ names → Says (.group names) s

/-- Objects whose members are names: a list has names only, or a single member of that kind. -/
inductive Simple : Obj → Prop
  | none : Simple .none
  | name (s : Name) : Simple (.name s)
  | names (names : List Name) : Simple (.list (names.map .name))
  | single {o : Obj} : Simple o → Simple (.list [o])
  | set (names : List Name) : Simple (.set names)
  | group (names : List Name) : Simple (.group names)

/-- `r` is a group without repetition of the names for which `p` holds. -/
def IsGroup (r : Res Result) (p : Name → Prop) : Prop :=
  ∃ names, r = .ok (.group names) ∧ names.Nodup ∧ ∀ s, s ∈ names ↔ p s

/-! ## Lemmas -/

theorem onlyNames_map (names : List Name) : onlyNames (names.map .name) = .ok names := by
  induction names with
  | nil => rfl
  | cons s rest ih => simp [onlyNames, ih]

theorem onlyNames_ok : ∀ {xs : List Obj} {names : List Name}, onlyNames xs = .ok names → xs = names.map .name
  | [], names, h => by simp [onlyNames] at h; simp [← h]
  | .name s :: rest, names, h => by
    simp only [onlyNames] at h
    cases hr : onlyNames rest with
    | error e => rw [hr] at h; cases h
    | ok ns =>
      rw [hr] at h
      have : names = s :: ns := by cases h; rfl
      rw [this, onlyNames_ok hr, List.map_cons]
  | .none :: _, _, h => by simp [onlyNames] at h
  | .list _ :: _, _, h => by simp [onlyNames] at h
  | .set _ :: _, _, h => by simp [onlyNames] at h
  | .group _ :: _, _, h => by simp [onlyNames] at h

theorem says_names (names : List Name) (s : Name) : Says (.list (names.map .name)) s ↔ s ∈ names := by
  constructor
  · intro h
    cases h with
    | list hx hs =>
      obtain ⟨t, ht, rfl⟩ := List.mem_map.mp hx
      cases hs
      exact ht
  · exact fun h => .list (List.mem_map.mpr ⟨s, h, rfl⟩) (.name s)

theorem says_single (o : Obj) (s : Name) : Says (.list [o]) s ↔ Says o s := by
  constructor
  · intro h
    cases h with
    | list hx hs => rw [List.mem_singleton.mp hx] at hs; exact hs
  · exact fun h => .list (List.mem_singleton.mpr rfl) h

theorem says_set (names : List Name) (s : Name) : Says (.set names) s ↔ s ∈ names :=
  ⟨fun h => by cases h; assumption, .set⟩

theorem says_group (names : List Name) (s : Name) : Says (.group names) s ↔ s ∈ names :=
  ⟨fun h => by cases h; assumption, .group⟩

/-- A group is made of the names that the object stands for. -/
def Made (o : Obj) (r : Res (List Name)) : Prop := ∃ names, r = .ok names ∧ names.Nodup ∧ ∀ s, s ∈ names ↔ Says o s

theorem unwrapSet_made {o : Obj} (h : Simple o) : Made o (unwrapSet o) := by
  induction h with
  | none => exact ⟨[], rfl, by simp, fun s => ⟨fun h => by simp at h, fun h => by cases h⟩⟩
  | name s => exact ⟨[s], rfl, by simp, fun t => ⟨fun h => by simp at h; rw [h]; exact .name s, fun h => by cases h; simp⟩⟩
  | names names =>
    match names with
    | [] => exact ⟨[], rfl, by simp, fun s => by simpa using says_names [] s⟩
    | [n] =>
      refine ⟨[n], rfl, by simp, fun s => ?_⟩
      rw [List.map_cons, List.map_nil, says_single]
      exact ⟨fun h => by simp at h; rw [h]; exact .name n, fun h => by cases h; simp⟩
    | n :: m :: rest =>
      refine ⟨asSet (n :: m :: rest), ?_, List.nodup_dedup _, fun s => ?_⟩
      · show (onlyNames ((n :: m :: rest).map .name)).map asSet = _
        rw [onlyNames_map]; rfl
      · rw [says_names, asSet, List.mem_dedup]
  | single ho ih =>
    obtain ⟨names, hr, hn, hs⟩ := ih
    exact ⟨names, by rw [unwrapSet]; exact hr, hn, fun s => by rw [says_single]; exact hs s⟩
  | set names => exact ⟨_, rfl, List.nodup_dedup _, fun s => by rw [says_set, asSet, List.mem_dedup]⟩
  | group names => exact ⟨_, rfl, List.nodup_dedup _, fun s => by rw [says_group, asSet, List.mem_dedup]⟩

theorem groupOf_made {o : Obj} (h : Simple o) : Made o (groupOf o) := by
  obtain ⟨names, hr, hn, hs⟩ := unwrapSet_made h
  exact ⟨names, by rw [groupOf, unwrapSet]; exact hr, hn, hs⟩

/-- Only simple objects are made groups. -/
theorem simple_of_unwrapSet : ∀ (o : Obj) (names : List Name), unwrapSet o = .ok names → Simple o
  | .none, _, _ => .none
  | .name s, _, _ => .name s
  | .set ns, _, _ => .set ns
  | .group ns, _, _ => .group ns
  | .list [], _, _ => .names []
  | .list [x], names, h => .single (simple_of_unwrapSet x names (by rw [unwrapSet] at h; exact h))
  | .list (x :: y :: rest), names, h => by
    have h' : (onlyNames (x :: y :: rest)).map asSet = .ok names := h
    cases hr : onlyNames (x :: y :: rest) with
    | error e => rw [hr] at h'; cases h'
    | ok ns => rw [onlyNames_ok hr]; exact .names ns

theorem implement_isGroup {op : List Name → List Name → List Name} {q : Prop → Prop → Prop}
    (hop : ∀ g h s, s ∈ op g h ↔ q (s ∈ g) (s ∈ h)) (g : List Name) {o : Obj} (ho : Simple o) :
    IsGroup (implement op g o) (fun s => q (s ∈ g) (Says o s)) := by
  obtain ⟨h, hr, -, hs⟩ := groupOf_made ho
  refine ⟨asSet (op g h), ?_, List.nodup_dedup _, fun s => ?_⟩
  · rw [implement, hr]; rfl
  · rw [asSet, List.mem_dedup, hop, hs]

theorem mem_setOr (g h : List Name) (s : Name) : s ∈ setOr g h ↔ s ∈ g ∨ s ∈ h := by simp [setOr, asSet]
theorem mem_setAnd (g h : List Name) (s : Name) : s ∈ setAnd g h ↔ s ∈ g ∧ s ∈ h := by
  simp [setAnd, asSet]; tauto
theorem mem_setSub (g h : List Name) (s : Name) : s ∈ setSub g h ↔ s ∈ g ∧ s ∉ h := by simp [setSub, asSet]
theorem mem_setXor (g h : List Name) (s : Name) : s ∈ setXor g h ↔ (s ∈ g ∧ s ∉ h) ∨ (s ∈ h ∧ s ∉ g) := by
  simp [setXor, mem_setOr, mem_setSub]

theorem setLe_iff {g h : List Name} (hg : g.Nodup) : setLe g h = true ↔ ∀ s ∈ g, s ∈ h := by
  simp only [setLe, Bool.and_eq_true, decide_eq_true_eq, List.all_eq_true]
  exact ⟨fun p => p.2, fun p => ⟨(List.subperm_of_subset hg p).length_le, p⟩⟩

theorem setEq_iff {g h : List Name} (hg : g.Nodup) (hh : h.Nodup) : setEq g h = true ↔ ∀ s, s ∈ g ↔ s ∈ h := by
  simp only [setEq, Bool.and_eq_true, decide_eq_true_eq, setLe_iff hg]
  constructor
  · rintro ⟨hl, hsub⟩ s
    refine ⟨hsub s, fun hs => ?_⟩
    exact ((List.subperm_of_subset hg hsub).perm_of_length_le (by omega)).mem_iff.mpr hs
  · intro p
    exact ⟨((List.perm_ext_iff_of_nodup hg hh).mpr p).length_eq, fun s hs => (p s).mp hs⟩

theorem setLt_iff {g h : List Name} (hg : g.Nodup) (hh : h.Nodup) :
    setLt g h = true ↔ (∀ s ∈ g, s ∈ h) ∧ ∃ s ∈ h, s ∉ g := by
  simp only [setLt, Bool.and_eq_true, decide_eq_true_eq, setLe_iff hg]
  constructor
  · rintro ⟨hl, hsub⟩
    refine ⟨hsub, ?_⟩
    by_contra hn
    push Not at hn
    have := (List.subperm_of_subset hh hn).length_le
    omega
  · rintro ⟨hsub, s, hs, hns⟩
    refine ⟨?_, hsub⟩
    by_contra hl
    exact hns (((List.subperm_of_subset hg hsub).perm_of_length_le (by omega)).mem_iff.mpr hs)

/-! ## Theorems -/

/-- C251: an object is made a group exactly when it is a name, a set, a group or a list of names, in any number of further
lists; the group has the names that the object stands for, each once. -/
theorem c251_made_partial (o : Obj) :
    ((∃ names, groupOf o = .ok names) ↔ Simple o) ∧
      ∀ names, groupOf o = .ok names → names.Nodup ∧ ∀ s, s ∈ names ↔ Says o s := by
  have hsimple : ∀ names, groupOf o = .ok names → Simple o := fun names h =>
    simple_of_unwrapSet o names (by rw [groupOf, unwrapSet] at h; exact h)
  refine ⟨⟨fun ⟨names, h⟩ => hsimple names h, fun h => ?_⟩, fun names h => ?_⟩
  · obtain ⟨names, hr, -⟩ := groupOf_made h
    exact ⟨names, hr⟩
  · obtain ⟨ns, hr, hn, hs⟩ := groupOf_made (hsimple names h)
    rw [hr] at h
    cases h
    exact ⟨hn, hs⟩

example : groupOf (.list [.list [.name c!"a", .name c!"b", .name c!"a"]]) = .ok [c!"b", c!"a"] := by decide +kernel

/-- C251: with a group on the left, unions, intersections, differences and symmetric differences are groups with the names they
should have; so is the difference with a group on the right. -/
theorem c251_partial (g : List Name) (o : Obj) (ho : Simple o) :
    IsGroup (or g o) (fun s => s ∈ g ∨ Says o s) ∧ IsGroup (and g o) (fun s => s ∈ g ∧ Says o s) ∧
      IsGroup (sub g o) (fun s => s ∈ g ∧ ¬ Says o s) ∧ IsGroup (rsub g o) (fun s => Says o s ∧ s ∉ g) ∧
      IsGroup (xor g o) (fun s => (s ∈ g ∧ ¬ Says o s) ∨ (Says o s ∧ s ∉ g)) :=
  ⟨implement_isGroup (q := fun a b => a ∨ b) mem_setOr g ho, implement_isGroup (q := fun a b => a ∧ b) mem_setAnd g ho,
    implement_isGroup (q := fun a b => a ∧ ¬ b) mem_setSub g ho,
    implement_isGroup (q := fun a b => b ∧ ¬ a) (fun g h s => mem_setSub h g s) g ho,
    implement_isGroup (q := fun a b => (a ∧ ¬ b) ∨ (b ∧ ¬ a)) mem_setXor g ho⟩

example : or [c!"r", c!"R"] (.name c!"radius") = .ok (.group [c!"r", c!"R", c!"radius"]) ∧
    sub [c!"r", c!"R"] (.list [.name c!"r", .name c!"x"]) = .ok (.group [c!"R"]) := by decide +kernel

/-- C251: a group is equal to every object that stands for the same names, and to no other simple object; it is disjoint from
those that stand for none of its names. -/
theorem c251_compare_partial (g : List Name) (hg : g.Nodup) (o : Obj) (ho : Simple o) :
    (∃ b, eq g o = .ok b ∧ (b = true ↔ ∀ s, s ∈ g ↔ Says o s)) ∧
      ∃ b, isdisjoint g o = .ok b ∧ (b = true ↔ ∀ s ∈ g, ¬ Says o s) := by
  obtain ⟨h, hr, hn, hs⟩ := groupOf_made ho
  refine ⟨⟨setEq g h, by rw [eq, hr]; rfl, ?_⟩, ⟨setDisjoint g h, by rw [isdisjoint, hr]; rfl, ?_⟩⟩
  · rw [setEq_iff hg hn]
    exact forall_congr' fun s => by rw [hs]
  · simp only [setDisjoint, List.all_eq_true, decide_eq_true_eq]
    constructor
    · exact fun p s hsg hso => p s ((hs s).mpr hso) hsg
    · exact fun p s hsh hsg => p s hsg ((hs s).mp hsh)

example : eq [c!"r", c!"R"] (.list [.name c!"R", .name c!"r", .name c!"r"]) = .ok true ∧
    eq [c!"r", c!"R"] (.name c!"r") = .ok false ∧ eq [c!"r"] (.name c!"r") = .ok true := by decide +kernel

/-- C251: inclusion of groups is inclusion of their names; equal groups include each other. -/
theorem c251_order_partial (g h : List Name) (hg : g.Nodup) (hh : h.Nodup) :
    (∃ b, le g (.group h) = .ok b ∧ (b = true ↔ ∀ s ∈ g, s ∈ h)) ∧
      (∃ b, lt g (.group h) = .ok b ∧ (b = true ↔ (∀ s ∈ g, s ∈ h) ∧ ∃ s ∈ h, s ∉ g)) ∧
      (eq g (.group h) = .ok true ↔ le g (.group h) = .ok true ∧ le h (.group g) = .ok true) := by
  refine ⟨⟨_, rfl, setLe_iff hg⟩, ⟨_, rfl, setLt_iff hg hh⟩, ?_⟩
  obtain ⟨b, hb, hiff⟩ := (c251_compare_partial g hg (.group h) (.group h)).1
  rw [hb]
  simp only [le, Except.ok.injEq, setLe_iff hg, setLe_iff hh, hiff, says_group]
  exact ⟨fun p => ⟨fun s => (p s).mp, fun s => (p s).mpr⟩, fun p s => ⟨p.1 s, p.2 s⟩⟩

example : lt [c!"r"] (.group [c!"R", c!"r"]) = .ok true ∧ le [c!"r"] (.group [c!"R"]) = .ok false := by decide +kernel

/-- C251: with a list or a set of names on the left, the names are right but the results are plain sets, except those of
differences and symmetric differences. -/
theorem c251_reflected_partial (g names : List Name) (o : Obj) (ho : o = .set names ∨ o = .list (names.map .name)) :
    (∃ r, ror g o = .ok (.set r) ∧ r.Nodup ∧ ∀ s, s ∈ r ↔ s ∈ g ∨ s ∈ names) ∧
      (∃ r, rand g o = .ok (.set r) ∧ r.Nodup ∧ ∀ s, s ∈ r ↔ s ∈ g ∧ s ∈ names) ∧
      IsGroup (rxor g o) (fun s => (s ∈ g ∧ s ∉ names) ∨ (s ∈ names ∧ s ∉ g)) := by
  have hi : items o = .ok names := by
    rcases ho with rfl | rfl
    · rfl
    · exact onlyNames_map names
  have hng : ∀ h, o ≠ .group h := by rcases ho with rfl | rfl <;> simp
  refine ⟨⟨setOr g names, ?_, List.nodup_dedup _, mem_setOr g names⟩,
    ⟨setAnd g names, ?_, List.nodup_dedup _, mem_setAnd g names⟩, ?_⟩
  · rcases ho with rfl | rfl <;> (simp only [ror, hi]; rfl)
  · rcases ho with rfl | rfl <;> (simp only [rand, hi]; rfl)
  · have key : ∀ h : List Name, (∀ s, s ∈ h ↔ s ∈ names) →
        IsGroup (do match ← sub g (.set h), ← rsub g (.set h) with
          | .group a, .group b => or a (.group b)
          | _, _ => .error .typeError) (fun s => (s ∈ g ∧ s ∉ names) ∨ (s ∈ names ∧ s ∉ g)) := by
      intro h hh
      obtain ⟨-, -, ⟨a, ha, -, hsa⟩, ⟨b, hb, -, hsb⟩, -⟩ := c251_partial g (.set h) (.set h)
      rw [ha, hb]
      obtain ⟨⟨r, hr, hrn, hrs⟩, -⟩ := c251_partial a (.group b) (.group b)
      refine ⟨r, hr, hrn, fun s => ?_⟩
      rw [hrs]
      simp only [hsa, says_group, hsb, says_set, hh]
    rcases ho with rfl | rfl
    · exact key names (fun s => Iff.rfl)
    · obtain ⟨h, hr, -, hs⟩ := unwrapSet_made (.names names)
      simp only [rxor, hr]
      exact key h (fun s => by rw [hs, says_names])

example : ror [c!"r"] (.list [.name c!"R"]) = .ok (.set [c!"r", c!"R"]) ∧
    rxor [c!"r"] (.list [.name c!"R"]) = .ok (.group [c!"r", c!"R"]) := by decide +kernel

/-- C251 fails as stated: with a name on the left, unions and intersections take its characters for names; the results of
operators with other objects on the left are no groups; comparisons refuse lists; and equal groups may have different
hashes, so that a group is not found among the keys of a dictionary (numbers may be members of groups; the model of the
order of sets is for CPython). -/
theorem c251_counterexample :
    (or [c!"r"] (.name c!"radius") = .ok (.group [c!"r", c!"radius"]) ∧
        ror [c!"r"] (.name c!"radius") = .ok (.set [c!"r", c!"a", c!"d", c!"i", c!"u", c!"s"])) ∧
      (and [c!"r"] (.name c!"radius") = .ok (.group []) ∧ rand [c!"r"] (.name c!"radius") = .ok (.set [c!"r"])) ∧
      (rand [c!"r"] (.set [c!"r"]) = .ok (.set [c!"r"])) ∧
      (eq [c!"r"] (.list [.name c!"r"]) = .ok true ∧ le [c!"r"] (.list [.name c!"r"]) = .error .typeError) ∧
      (∀ x, x ∈ [0, 8] ↔ x ∈ [8, 0]) ∧ groupHash [0, 8] ≠ groupHash [8, 0] :=
  ⟨by decide +kernel, by decide +kernel, by decide +kernel, by decide +kernel, by simp; tauto, by decide +kernel⟩

end Verif.Aliased.Operators
