import Verif.Systems.Cache
import Verif.Systems.Lemmas
import Verif.Aliased.Props

/-!
# C167-C168: the instances of `Unit`
-/

set_option linter.unusedSimpArgs false

namespace Verif.Systems

open Verif.Py Verif.Symbolic Verif.Metric Verif.Aliased

attribute [local irreducible] units allUnits prefixes identify canonicalUnits canonicalDimensions quantities

/-! ## Specification -/

/-- Specification: two expressions are the same unit if they are equal, or if both are ways to write the same named
unit. -/
def SameUnit (ident : Str → Res NamedUnit) (e f : List Term) : Prop :=
  e = f ∨ ∃ n, ident (exprStr e) = .ok n ∧ ident (exprStr f) = .ok n

/-- Specification: a string is clear if it is either no name and no symbol of a named unit, or a name or symbol of a
unit other than those with the symbol `cd`, and can be read as an expression with this one variable. -/
def ClearName (s : Str) : Prop :=
  ∀ n ∈ allUnits, (s = n.name ∨ s = n.symbol) →
    ofString s = .ok [⟨1, s, 1⟩] ∧ n.name ≠ c!"cd" ∧ n.symbol ≠ c!"cd"

/-- Specification: the strings that stand for the argument are clear. -/
def ClearArg (a : Target) : Prop :=
  (∀ s, a.single = some s → ClearName s) ∧ ∀ e, a.terms = .ok e → ClearName (exprStr e)

/-- Specification: the string of the expression is read as the same expression (see C03). -/
def Rereads (a : Target) : Prop := ∀ e, a.terms = .ok e → ofString (exprStr e) = .ok e

/-- Specification: all arguments of `Unit` in a history can be read again. -/
def RereadsAll (h : List Call) : Prop := ∀ a, Call.unit a ∈ h → Rereads a

/-! ## What the proofs use of the table of named units -/

/-- The facts about the table that matter here. -/
structure Table (ident : Str → Res NamedUnit) : Prop where
  mem : ∀ s n, ident s = .ok n → n ∈ allUnits
  spells : ∀ s n, ident s = .ok n → s = n.name ∨ s = n.symbol ∨ ∃ r, s = 'u' :: r
  self : ∀ s, s ≠ c!"cd" → ∀ n ∈ allUnits, (s = n.name ∨ s = n.symbol) → ident s = .ok n
  err : ∀ s x, ident s = .error x → x = .named "UnitParsingError"

theorem identify_table : Table identify := by
  have hl : ∀ s, identify s = orUnknown (lookup s) := identify_eq
  constructor
  · intro s n h
    rw [hl] at h
    cases hk : lookup s with
    | none => rw [hk] at h; cases h
    | some m => rw [hk] at h; injection h with h; subst h; exact (lookup_some hk).1
  · intro s n h
    rw [hl] at h
    cases hk : lookup s with
    | none => rw [hk] at h; cases h
    | some m =>
      rw [hk] at h; injection h with h; subst h
      rcases spells_iff.2 (lookup_some hk).2 with h | h | h
      · exact .inl h
      · exact .inr (.inl h)
      · exact .inr (.inr ⟨_, h.2⟩)
  · intro s hs n hn h
    obtain ⟨h1, h2⟩ := mem_allUnits.1 hn
    exact (c27_partial s hs).2.1 _ h1 _ h2 (by
      rcases h with h | h
      · exact .inl h
      · exact .inr (.inl h))
  · intro s x h
    rw [hl] at h
    cases hk : lookup s with
    | none => rw [hk] at h; injection h with h; exact h.symm
    | some m => rw [hk] at h; cases h

section
variable {ident : Str → Res NamedUnit}

theorem SameUnit.symm {e f : List Term} (h : SameUnit ident e f) : SameUnit ident f e := by
  rcases h with h | ⟨n, h1, h2⟩
  · exact .inl h.symm
  · exact .inr ⟨n, h2, h1⟩

theorem SameUnit.trans {e f g : List Term} (h : SameUnit ident e f) (k : SameUnit ident f g) :
    SameUnit ident e g := by
  rcases h with h | ⟨n, h1, h2⟩
  · subst h; exact k
  · rcases k with k | ⟨m, k1, k2⟩
    · subst k; exact .inr ⟨n, h1, h2⟩
    · rw [h2] at k1; injection k1 with k1; subst k1; exact .inr ⟨n, h1, k2⟩

theorem exprStr_one (s : Str) : exprStr [⟨1, s, 1⟩] = s := by
  by_cases h : s = one
  · subst h; decide
  · simp [exprStr, termStr, Symbolic.join, coefStr, expStr, h]

/-- A name of a unit with a clear spelling cannot be confused. -/
theorem clear_cd {s : Str} (hs : ClearName s) {n : NamedUnit} (hn : n ∈ allUnits) (h : s = n.name ∨ s = n.symbol) :
    s ≠ c!"cd" := by
  obtain ⟨_, h1, h2⟩ := hs n hn h
  rcases h with h | h
  · rw [h]; exact h1
  · rw [h]; exact h2

/-- What the call of `NamedUnit` gives. -/
theorem callIn_of_table (ht : Table ident) {c : AMap Str NamedUnit} (hc : CacheOk c) (s : Str) :
    (s ≠ c!"cd" → (callIn ident c s).2 = ident s) ∧
    (s = c!"cd" → ∀ n, (callIn ident c s).2 = .ok n → n ∈ allUnits ∧ (c!"cd" = n.name ∨ c!"cd" = n.symbol)) := by
  rcases callIn_result (ident := ident) c s with ⟨u, hu, h⟩ | h
  · obtain ⟨x, hx, hsx, rfl⟩ := getItem_mem hu
    obtain ⟨h1, h2⟩ := hc x hx
    constructor
    · intro hs
      rw [h, ht.self s hs _ h1 (h2 s hsx)]
    · intro hs n hn
      rw [h] at hn; injection hn with hn; subst hn; subst hs
      exact ⟨h1, h2 _ hsx⟩
  · rw [h]
    refine ⟨fun _ => rfl, ?_⟩
    intro hs n hn
    subst hs
    refine ⟨ht.mem _ _ hn, ?_⟩
    rcases ht.spells _ _ hn with h | h | ⟨r, h⟩
    · exact .inl h
    · exact .inr h
    · simp at h

theorem callIn_error (ht : Table ident) {c : AMap Str NamedUnit} (s : Str) {x : Err}
    (h : (callIn ident c s).2 = .error x) : x = .named "UnitParsingError" := by
  rcases callIn_result (ident := ident) c s with ⟨u, _, h1⟩ | h1
  · rw [h1] at h; cases h
  · rw [h1] at h; exact ht.err _ _ h

/-! ## Mappings whose groups may overlap -/

theorem get?_isSome_of_mem {κ ν : Type _} [DecidableEq κ] {d : Dict κ ν} {k : κ} (h : k ∈ d.keys) :
    ∃ v, d.get? k = some v := by
  cases hk : d.get? k with
  | none => exact absurd h ((Dict.get?_eq_none_iff _ _).1 hk)
  | some v => exact ⟨v, rfl⟩

theorem getItem_error_not_mem {α ν : Type _} [DecidableEq α] {m : AMap α ν} {x : α} {e : Err}
    (h : Aliased.getItem m x = .error e) : x ∉ flatKeys m := by
  intro hx
  obtain ⟨g, hg, hxg⟩ := List.mem_flatten.1 hx
  have : (m.keys.reverse.find? (fun g => x ∈ g)).isSome := by
    rw [List.find?_isSome]
    exact ⟨g, List.mem_reverse.2 hg, by simpa using hxg⟩
  obtain ⟨g', hg'⟩ := Option.isSome_iff_exists.1 this
  have hx' : x ∈ g' := by simpa using List.find?_some hg'
  have hk : g' ∈ m.keys := List.mem_reverse.1 (List.mem_of_find?_eq_some hg')
  obtain ⟨v, hv⟩ := get?_isSome_of_mem hk
  unfold Aliased.getItem at h
  rw [resolve_last, hg'] at h
  cases g' with
  | nil => simp at hx'
  | cons a g' => simp only [hv] at h; cases h

/-- Registering one more alias, whatever the mapping holds. -/
theorem addAliases_one {α ν : Type _} [DecidableEq α] {m : AMap α ν} {name s : α} {v : ν}
    (hn : Aliased.getItem m name = .ok v) (hs : s ∉ flatKeys m) :
    ∃ g, name ∈ g ∧ (g, v) ∈ m ∧
      (s = name ∧ addAliases m name [s] = (m, none) ∨ addAliases m name [s] = ((m.set (g.union [s]) v).del g, none)) := by
  have hn' := hn
  unfold Aliased.getItem at hn
  cases hr : resolve m name with
  | none => rw [hr] at hn; cases hn
  | some g =>
    have hr' := hr
    rw [resolve_last] at hr'
    have hx : name ∈ g := by simpa using List.find?_some hr'
    cases g with
    | nil => simp at hx
    | cons a g =>
      rw [hr] at hn
      simp only at hn
      split at hn
      · next w hw =>
        injection hn with hn; subst hn
        refine ⟨a :: g, hx, Dict.mem_of_get? hw, ?_⟩
        show _ ∧ aliasLoop name m [s] = _ ∨ aliasLoop name m [s] = _
        unfold aliasLoop
        split
        · next hsn => left; exact ⟨hsn, rfl⟩
        · right
          simp only [hs, if_false, hr, hn', aliasLoop]
      · cases hn

theorem mem_del {κ ν : Type _} [DecidableEq κ] {d : Dict κ ν} {k : κ} {x : κ × ν} (h : x ∈ d.del k) : x ∈ d := by
  unfold Dict.del at h; exact (List.mem_filter.1 h).1

theorem mem_setItem {α ν : Type _} [DecidableEq α] {m : AMap α ν} {k : α} {v : ν} (hk : k ∉ flatKeys m)
    {x : Aliased.Group α × ν} (h : x ∈ setItem m k v) : x = ([k], v) ∨ x ∈ m := by
  unfold setItem at h
  split at h
  · next a g hr =>
    rw [resolve_last] at hr
    have h1 : k ∈ a :: g := by simpa using List.find?_some hr
    exact absurd (List.mem_flatten.2 ⟨_, List.mem_reverse.1 (List.mem_of_find?_eq_some hr), h1⟩) hk
  · exact mem_set_cases h

/-! ## C167: what a unit denotes does not depend on the history -/

/-- The invariant of the caches, for every history. -/
def CacheInv (ident : Str → Res NamedUnit) (c : Caches) : Prop :=
  CacheOk c.named ∧ ∀ x ∈ c.units, ∀ a ∈ x.1, ClearName a →
    ∃ e, ofString a = .ok e ∧ (ClearName (exprStr e) → SameUnit ident e x.2.2)

theorem storeOther_mem {m : AMap Str Instance} {name : Str} (hname : name ∉ flatKeys m) {o : Option Str} {v : Instance}
    {x : Aliased.Group Str × Instance} (h : x ∈ storeOther m name o v) :
    x ∈ m ∨ (x.2 = v ∧ name ∈ x.1 ∧ ∀ b ∈ x.1, b = name ∨ o = some b) := by
  unfold storeOther at h
  split at h
  · next c s =>
    rcases mem_set_cases h with h | h
    · right; subst h
      refine ⟨rfl, ?_, ?_⟩
      · rw [List.mem_dedup]; simp
      · intro b hb
        rw [List.mem_dedup] at hb
        simp at hb
        rcases hb with hb | hb
        · exact .inl hb
        · right; rw [hb]
    · exact .inl h
  · rcases mem_setItem hname h with h | h
    · right; subst h; exact ⟨rfl, by simp, by intro b hb; left; simpa using hb⟩
    · exact .inl h

theorem single_terms {a : Target} {s : Str} {e : List Term} (h : a.single = some s) (he : a.terms = .ok e)
    (hr : Rereads a) : ofString s = .ok e := by
  cases a with
  | text t => injection h with h; subst h; exact he
  | expr ts =>
    cases ts with
    | nil => cases h
    | cons t ts =>
      cases ts with
      | cons u us => cases h
      | nil =>
        injection h with h
        injection he with he
        subst he
        have := hr _ rfl
        have h2 : exprStr [t] = termStr t := by simp [exprStr, Symbolic.join]
        rw [h2, h] at this
        exact this

/-- Registration: the invariant stays, and the result is the unit that was asked for. -/
theorem register_inv (ht : Table ident) {c : Caches} (hc : CacheInv ident c) {a : Target} {e : List Term}
    (he : a.terms = .ok e) (hr : Rereads a)
    (hs : ∀ s, a.single = some s → ∃ x, getItem c.units s = .error x) :
    CacheInv ident (register ident c a e).1 ∧
    ∃ i r, (register ident c a e).2 = .ok (i, r) ∧ (ClearName (exprStr e) → SameUnit ident e r) := by
  have hparse := hr _ he
  unfold register
  cases hg : getItem c.units (exprStr e) with
  | ok u =>
    have hsame : ClearName (exprStr e) → SameUnit ident e u.2 := by
      intro hcl
      obtain ⟨x, hx, hxn, hxu⟩ := getItem_mem hg
      obtain ⟨e', h1, h2⟩ := hc.2 x hx _ hxn hcl
      rw [hparse] at h1; injection h1 with h1; subst h1
      rw [← hxu]; exact h2 hcl
    cases a with
    | expr ts => exact ⟨hc, u.1, u.2, rfl, hsame⟩
    | text s =>
      obtain ⟨_, hx⟩ := hs s rfl
      obtain ⟨g, hng, hgm, hal⟩ := addAliases_one hg (getItem_error_not_mem hx)
      rcases hal with ⟨_, hal⟩ | hal
      · simp only [hal]; exact ⟨hc, u.1, u.2, rfl, hsame⟩
      · simp only [hal]
        refine ⟨⟨hc.1, ?_⟩, u.1, u.2, rfl, hsame⟩
        intro x hx b hb hcl
        rcases mem_set_cases (mem_del hx) with h | h
        · subst h
          rcases (Group.mem_union _ _ _).1 hb with hb | hb
          · exact hc.2 _ hgm b hb hcl
          · simp at hb; subst hb
            exact ⟨e, he, hsame⟩
        · exact hc.2 x h b hb hcl
  | error y =>
    have hname := getItem_error_not_mem hg
    obtain ⟨hn1, hn2⟩ := callIn_of_table ht hc.1 (exprStr e)
    have hco : CacheOk (callIn ident c.named (exprStr e)).1 := callIn_cacheOk ht.mem hc.1 _
    have her := fun x => callIn_error ht (c := c.named) (exprStr e) (x := x)
    generalize callIn ident c.named (exprStr e) = r at hn1 hn2 hco her ⊢
    obtain ⟨named, r⟩ := r
    cases r with
    | ok n =>
      refine ⟨⟨hco, ?_⟩, c.next, e, rfl, fun _ => .inl rfl⟩
      intro x hx b hb hcl
      rcases mem_set_cases hx with h | h
      · subst h
        have hb' : b = n.name ∨ b = n.symbol := by rw [List.mem_dedup] at hb; simpa using hb
        by_cases hcd : exprStr e = c!"cd"
        · obtain ⟨h1, h2⟩ := hn2 hcd n rfl
          obtain ⟨_, h3, h4⟩ := hcl n h1 hb'
          rcases h2 with h2 | h2
          · exact absurd h2.symm h3
          · exact absurd h2.symm h4
        · have hid : ident (exprStr e) = .ok n := (hn1 hcd).symm
          have hmem := ht.mem _ _ hid
          have hbcd := clear_cd hcl hmem hb'
          refine ⟨_, (hcl n hmem hb').1, fun _ => .inr ⟨n, ?_, hid⟩⟩
          rw [exprStr_one]
          exact ht.self b hbcd n hmem hb'
      · exact hc.2 x h b hb hcl
    | error x =>
      have hx := her x rfl
      subst hx
      simp only [if_true]
      refine ⟨⟨hco, ?_⟩, c.next, e, rfl, fun _ => .inl rfl⟩
      intro x hx b hb hcl
      rcases storeOther_mem hname hx with h | ⟨h1, _, h3⟩
      · exact hc.2 x h b hb hcl
      · rw [h1]
        rcases h3 b hb with h | h
        · subst h; exact ⟨e, hparse, fun _ => .inl rfl⟩
        · exact ⟨e, single_terms h he hr, fun _ => .inl rfl⟩

theorem callUnitIn_none {c : Caches} {a : Target} (h : a.single = none) : callUnitIn ident c a = create ident c a := by
  unfold callUnitIn; rw [h]

theorem callUnitIn_miss {c : Caches} {a : Target} {s : Str} (h : a.single = some s) {x : Err}
    (hg : getItem c.units s = .error x) : callUnitIn ident c a = create ident c a := by
  unfold callUnitIn; rw [h]; simp only [hg]

theorem callUnitIn_hit {c : Caches} {a : Target} {s : Str} (h : a.single = some s) {u : Instance}
    (hg : getItem c.units s = .ok u) : callUnitIn ident c a = (c, .ok u) := by
  unfold callUnitIn; rw [h]; simp only [hg]

/-- One call. -/
theorem callUnitIn_inv (ht : Table ident) {c : Caches} (hc : CacheInv ident c) {a : Target} (hr : Rereads a) :
    CacheInv ident (callUnitIn ident c a).1 ∧
    (ClearArg a → match a.terms with
      | .error x => (callUnitIn ident c a).2 = .error x
      | .ok e => ∃ i r, (callUnitIn ident c a).2 = .ok (i, r) ∧ SameUnit ident e r) := by
  have hcreate : (∀ s, a.single = some s → ∃ x, getItem c.units s = .error x) →
      CacheInv ident (create ident c a).1 ∧
      (ClearArg a → match a.terms with
        | .error x => (create ident c a).2 = .error x
        | .ok e => ∃ i r, (create ident c a).2 = .ok (i, r) ∧ SameUnit ident e r) := by
    intro hs
    unfold create
    cases he : a.terms with
    | error x => exact ⟨hc, fun _ => rfl⟩
    | ok e =>
      obtain ⟨h1, i, r, h2, h3⟩ := register_inv ht hc he hr hs
      exact ⟨h1, fun hcl => ⟨i, r, h2, h3 (hcl.2 e he)⟩⟩
  cases hsi : a.single with
  | none => rw [callUnitIn_none hsi]; exact hcreate (by rw [hsi]; intro s h; cases h)
  | some s =>
    cases hg : getItem c.units s with
    | error x =>
      rw [callUnitIn_miss hsi hg]
      exact hcreate (by intro s' h; rw [hsi] at h; injection h with h; subst h; exact ⟨x, hg⟩)
    | ok u =>
      rw [callUnitIn_hit hsi hg]
      refine ⟨hc, ?_⟩
      intro hcl
      obtain ⟨x, hx, hxn, hxu⟩ := getItem_mem hg
      obtain ⟨e, h1, h2⟩ := hc.2 x hx _ hxn (hcl.1 s hsi)
      cases he : a.terms with
      | error y =>
        exfalso
        cases a with
        | expr ts => cases he
        | text t =>
          injection hsi with hsi; subst hsi
          have he' : ofString t = .error y := he
          rw [he'] at h1; cases h1
      | ok e' =>
        have := single_terms hsi he hr
        rw [this] at h1; injection h1 with h1; subst h1
        refine ⟨u.1, u.2, rfl, ?_⟩
        rw [← hxu]
        exact h2 (hcl.2 _ he)

theorem run_inv (ht : Table ident) {c : Caches} (hc : CacheInv ident c) {x : Call} (hr : ∀ a, x = .unit a → Rereads a) :
    CacheInv ident (x.run ident c) := by
  cases x with
  | unit a => exact (callUnitIn_inv ht hc (hr a rfl)).1
  | named s => exact ⟨callIn_cacheOk ht.mem hc.1 s, hc.2⟩

theorem runAll_inv (ht : Table ident) : ∀ (h : List Call) {c : Caches}, CacheInv ident c → RereadsAll h →
    CacheInv ident (runAll ident c h)
  | [], _, hc, _ => hc
  | x :: h, _, hc, hr => runAll_inv ht h (run_inv ht hc (fun a ha => hr a (by rw [ha]; simp)))
      (fun a ha => hr a (List.mem_cons_of_mem _ ha))

theorem empty_inv : CacheInv ident .empty := by
  constructor
  · intro x hx; cases hx
  · intro x hx; cases hx

end

/-- **C167.** Whatever units and named units were created before, `Unit(arg)` is the unit that `arg` denotes: the
expression that is read from it, or another way to write the same named unit; and it fails only if `arg` cannot be read.
The argument must be clear: not one of the names that can be confused. -/
theorem c167_partial (h : List Call) (hh : RereadsAll h) (a : Target) (ha : Rereads a) (hc : ClearArg a) :
    match a.terms with
    | .error x => (callUnit (cachesAfter h) a).2 = .error x
    | .ok e => ∃ i r, (callUnit (cachesAfter h) a).2 = .ok (i, r) ∧ SameUnit identify e r := by
  have h1 : cachesAfter h = runAll identify .empty h := by rw [cachesAfter]
  have h2 : ∀ c, callUnit c a = callUnitIn identify c a := by intro c; rw [callUnit]
  rw [h2, h1]
  exact (callUnitIn_inv identify_table (runAll_inv identify_table h empty_inv hh) ha).2 hc

/-! ### Which names are clear -/

theorem cd_units : ∀ m ∈ allUnits, (m.name = c!"cd" ∨ m.symbol = c!"cd") →
    m.name = c!"candela" ∨ m.name = c!"centiday" := by
  decide +kernel

theorem clear_of_unknown {s : Str} (h : lookup s = none) : ClearName s := by
  intro n hn hs
  exfalso
  obtain ⟨v, hv⟩ := lookup_isSome hn (s := s) (spells_iff.1 (by
    rcases hs with hs | hs
    · exact .inl hs
    · exact .inr (.inl hs)))
  rw [h] at hv; cases hv

/-- A name that can be read as one variable is clear, except `cd`, `candela` and `centiday`. -/
theorem clear_of_name {s : Str} (h : ofString s = .ok [⟨1, s, 1⟩]) (h1 : s ≠ c!"cd") (h2 : s ≠ c!"candela")
    (h3 : s ≠ c!"centiday") : ClearName s := by
  intro n hn hs
  have key : ∀ m ∈ allUnits, (m.name = c!"cd" ∨ m.symbol = c!"cd") → m.name = c!"candela" ∨ m.name = c!"centiday" :=
    cd_units
  refine ⟨h, ?_⟩
  by_cases hc : n.name = c!"cd" ∨ n.symbol = c!"cd"
  · exfalso
    have hname : n.symbol = c!"cd" := by
      rcases hc with hc | hc
      · rcases key n hn (.inl hc) with h | h <;> rw [hc] at h <;> exact absurd h (by decide)
      · exact hc
    rcases hs with hs | hs
    · rcases key n hn hc with h | h
      · exact h2 (hs.trans h)
      · exact h3 (hs.trans h)
    · exact h1 (hs.trans hname)
  · exact not_or.1 hc

/-! ## C168: one object for each unit -/

/-- Specification: a regular argument is clear, can be read again, and does not write the symbol of a named unit in a
way that differs from its symbol (`u` for `μ`). -/
def Regular (ident : Str → Res NamedUnit) (a : Target) : Prop :=
  Rereads a ∧ ClearArg a ∧
    ∀ e n, a.terms = .ok e → ident (exprStr e) = .ok n → exprStr e = n.name ∨ exprStr e = n.symbol

/-- Specification: all arguments of `Unit` in a history are regular. -/
def RegularAll (ident : Str → Res NamedUnit) (h : List Call) : Prop := ∀ a, Call.unit a ∈ h → Regular ident a

section
variable {ident : Str → Res NamedUnit}

/-- What holds for one entry of the mapping: it is found under all usual names of its unit, and only under names of its
unit. -/
structure EntryOk (ident : Str → Res NamedUnit) (x : Aliased.Group Str × Instance) : Prop where
  own : (∃ n, ident (exprStr x.2.2) = .ok n ∧ n.name ≠ c!"cd" ∧ n.symbol ≠ c!"cd" ∧ n.name ∈ x.1 ∧ n.symbol ∈ x.1) ∨
    ((∀ n, ident (exprStr x.2.2) ≠ .ok n) ∧ exprStr x.2.2 ∈ x.1)
  only : ∀ b ∈ x.1, (∃ n, ident (exprStr x.2.2) = .ok n ∧ (b = n.name ∨ b = n.symbol)) ∨
    (∃ e, ofString b = .ok e ∧ ClearName b ∧ ClearName (exprStr e) ∧ SameUnit ident e x.2.2)

/-- The invariant of the caches, for histories with regular arguments. -/
structure RegInv (ident : Str → Res NamedUnit) (c : Caches) : Prop where
  named : CacheOk c.named
  inv : Inv c.units
  entry : ∀ x ∈ c.units, EntryOk ident x

/-- The canonical string of a regular argument is a name of every entry for the same unit. -/
theorem own_name {a : Target} (ha : Regular ident a) {e : List Term} (he : a.terms = .ok e)
    {x : Aliased.Group Str × Instance} (hx : EntryOk ident x) (h : SameUnit ident e x.2.2) : exprStr e ∈ x.1 := by
  rcases h with h | ⟨n, h1, h2⟩
  · rcases hx.own with ⟨n, h1, _, _, h3, h4⟩ | ⟨_, h2⟩
    · rw [← h] at h1
      rcases ha.2.2 e n he h1 with h5 | h5
      · rw [h5]; exact h3
      · rw [h5]; exact h4
    · rw [h]; exact h2
  · rcases hx.own with ⟨m, h3, _, _, h4, h5⟩ | ⟨h3, _⟩
    · rw [h2] at h3; injection h3 with h3; subst h3
      rcases ha.2.2 e n he h1 with h6 | h6
      · rw [h6]; exact h4
      · rw [h6]; exact h5
    · exact absurd h2 (h3 n)

/-- A clear name of an entry is a way to write its unit. -/
theorem only_same (ht : Table ident) {x : Aliased.Group Str × Instance} (hx : EntryOk ident x) {b : Str} (hb : b ∈ x.1)
    (hcl : ClearName b) {e : List Term} (he : ofString b = .ok e) : SameUnit ident e x.2.2 := by
  rcases hx.only b hb with ⟨n, h1, h2⟩ | ⟨e', h1, _, _, h4⟩
  · have hmem := ht.mem _ _ h1
    have h3 := (hcl n hmem h2).1
    rw [he] at h3; injection h3 with h3; subst h3
    refine .inr ⟨n, ?_, h1⟩
    rw [exprStr_one]
    exact ht.self b (clear_cd hcl hmem h2) n hmem h2
  · rw [he] at h1; injection h1 with h1; subst h1; exact h4

/-- Later contents of the mapping keep what was stored. -/
def Keeps (m m' : AMap Str Instance) : Prop := ∀ (x : Str) (v : Instance), Aliased.getItem m x = .ok v → Aliased.getItem m' x = .ok v

theorem keeps_append {m : AMap Str Instance} (hm : Inv m) {g : Aliased.Group Str} (hg : g.Nodup) (hne : g ≠ [])
    (hd : ∀ x ∈ g, x ∉ flatKeys m) (v : Instance) : Keeps m (m ++ [(g, v)]) := by
  intro x w h
  obtain ⟨g', h1, h2⟩ := (getItem_ok_iff hm x w).1 h
  exact (getItem_ok_iff (inv_append hm hg hne hd v) x w).2 ⟨g', List.mem_append_left _ h1, h2⟩

/-- A new entry. -/
theorem regular_append {c : Caches} (hc : RegInv ident c) {g : Aliased.Group Str} (hg : g.Nodup) (hne : g ≠ [])
    (hd : ∀ x ∈ g, x ∉ flatKeys c.units) {v : Instance} (hv : EntryOk ident (g, v)) {named : AMap Str NamedUnit}
    (hn : CacheOk named) {k : Nat} : RegInv ident ⟨c.units ++ [(g, v)], named, k⟩ := by
  refine ⟨hn, inv_append hc.inv hg hne hd v, ?_⟩
  intro x hx
  rcases List.mem_append.1 hx with hx | hx
  · exact hc.entry x hx
  · simp at hx; rw [hx]; exact hv

theorem setTuple_new {m : AMap Str Instance} {ks : List Str} (hd : ∀ x ∈ ks, x ∉ flatKeys m) (hne : ks ≠ [])
    (v : Instance) : setTuple m ks v = m ++ [(ks.dedup, v)] := by
  unfold setTuple
  refine Dict.set_of_not_mem (not_mem_keys_of_disjoint ?_ ?_) v
  · obtain ⟨k, ks', rfl⟩ := List.exists_cons_of_ne_nil hne
    intro h
    have : k ∈ (k :: ks').dedup := List.mem_dedup.2 (by simp)
    rw [h] at this; simp at this
  · intro x hx; exact hd x (List.mem_dedup.1 hx)

theorem setItem_new {m : AMap Str Instance} (hm : Inv m) {k : Str} (hk : k ∉ flatKeys m) (v : Instance) :
    setItem m k v = m ++ [([k], v)] := by
  unfold setItem
  rw [(resolve_eq_none_iff hm k).2 hk]
  exact Dict.set_of_not_mem (not_mem_keys_of_disjoint (by simp) (by simpa using hk)) v

theorem dedup_ne_nil {k : Str} {ks : List Str} (h : k ∈ ks) : ks.dedup ≠ [] := by
  intro h1
  have := List.mem_dedup.2 h
  rw [h1] at this; simp at this

/-- Registration with a regular argument. -/
theorem register_regular (ht : Table ident) {c : Caches} (hc : RegInv ident c) {a : Target} (ha : Regular ident a)
    {e : List Term} (he : a.terms = .ok e) (hs : ∀ s, a.single = some s → ∃ x, getItem c.units s = .error x) :
    RegInv ident (register ident c a e).1 ∧ Keeps c.units (register ident c a e).1.units ∧
    ∃ v, (register ident c a e).2 = .ok v ∧ SameUnit ident e v.2 ∧
      getItem (register ident c a e).1.units (exprStr e) = .ok v := by
  have hparse := ha.1 _ he
  have hcl := ha.2.1.2 _ he
  unfold register
  cases hg : getItem c.units (exprStr e) with
  | ok u =>
    obtain ⟨g0, hgm0, hng0⟩ := (getItem_ok_iff hc.inv _ _).1 hg
    have hsame : SameUnit ident e u.2 := only_same ht (hc.entry _ hgm0) hng0 hcl hparse
    cases a with
    | expr ts => exact ⟨⟨hc.named, hc.inv, hc.entry⟩, fun _ _ h => h, u, rfl, hsame, hg⟩
    | text s =>
      obtain ⟨_, hx⟩ := hs s rfl
      have hsk := getItem_error_not_mem hx
      obtain ⟨g, hng, hgm, hal⟩ := addAliases_one hg hsk
      rcases hal with ⟨_, hal⟩ | hal
      · simp only [hal]
        exact ⟨⟨hc.named, hc.inv, hc.entry⟩, fun _ _ h => h, u, rfl, hsame, hg⟩
      · simp only [hal]
        have hget := getItem_alias_step hc.inv hgm hng hsk
        have hkeep : Keeps c.units ((c.units.set (g.union [s]) u).del g) := by
          intro x v h
          rw [hget]
          split
          · next hxs => subst hxs; rw [hx] at h; cases h
          · exact h
        refine ⟨⟨hc.named, alias_step_inv hc.inv hgm hng hsk, ?_⟩, hkeep, u, rfl, hsame, hkeep _ _ hg⟩
        intro x hx
        rcases mem_set_cases (mem_del hx) with h | h
        · subst h
          have hold := hc.entry _ hgm
          constructor
          · rcases hold.own with ⟨n, h1, h2, h3, h4, h5⟩ | ⟨h1, h2⟩
            · exact .inl ⟨n, h1, h2, h3, (Group.mem_union _ _ _).2 (.inl h4), (Group.mem_union _ _ _).2 (.inl h5)⟩
            · exact .inr ⟨h1, (Group.mem_union _ _ _).2 (.inl h2)⟩
          · intro b hb
            rcases (Group.mem_union _ _ _).1 hb with hb | hb
            · exact hold.only b hb
            · simp at hb; subst hb
              exact .inr ⟨e, he, ha.2.1.1 b rfl, hcl, hsame⟩
        · exact hc.entry x h
  | error y =>
    have hname := getItem_error_not_mem hg
    have hnone : ∀ x ∈ c.units, ¬ SameUnit ident e x.2.2 := fun x hx h =>
      hname (List.mem_flatten.2 ⟨x.1, List.mem_map.2 ⟨x, hx, rfl⟩, own_name ha he (hc.entry x hx) h⟩)
    obtain ⟨hn1, hn2⟩ := callIn_of_table ht hc.named (exprStr e)
    have hco : CacheOk (callIn ident c.named (exprStr e)).1 := callIn_cacheOk ht.mem hc.named _
    have her := fun x => callIn_error ht (c := c.named) (exprStr e) (x := x)
    generalize callIn ident c.named (exprStr e) = r at hn1 hn2 hco her ⊢
    obtain ⟨named, r⟩ := r
    cases r with
    | ok n =>
      have hcd : exprStr e ≠ c!"cd" := by
        intro hcd
        obtain ⟨h1, h2⟩ := hn2 hcd n rfl
        obtain ⟨_, h3, h4⟩ := hcl n h1 (by rw [hcd]; exact h2)
        rcases h2 with h2 | h2
        · exact h3 h2.symm
        · exact h4 h2.symm
      have hid : ident (exprStr e) = .ok n := (hn1 hcd).symm
      have hmem := ht.mem _ _ hid
      have hab := ha.2.2 e n he hid
      obtain ⟨_, hc1, hc2⟩ := hcl n hmem hab
      have hd : ∀ b ∈ [n.name, n.symbol], b ∉ flatKeys c.units := by
        intro b hb hbk
        have hb' : b = n.name ∨ b = n.symbol := by simpa using hb
        have hbcd : b ≠ c!"cd" := by
          rcases hb' with h | h
          · rw [h]; exact hc1
          · rw [h]; exact hc2
        have hbn := ht.self b hbcd n hmem hb'
        obtain ⟨g, hgk, hbg⟩ := List.mem_flatten.1 hbk
        obtain ⟨x, hx, rfl⟩ := List.mem_map.1 hgk
        refine hnone x hx ?_
        rcases (hc.entry x hx).only b hbg with ⟨m, h1, h2⟩ | ⟨e', h1, h2, _, h4⟩
        · have := ht.self b hbcd m (ht.mem _ _ h1) h2
          rw [hbn] at this; injection this with this; subst this
          exact .inr ⟨n, hid, h1⟩
        · have h5 := (h2 n hmem hb').1
          rw [h1] at h5; injection h5 with h5; subst h5
          refine SameUnit.trans (.inr ⟨n, hid, ?_⟩) h4
          rw [exprStr_one]; exact hbn
      simp only [setTuple_new hd (by simp)]
      have hdd : ∀ b ∈ [n.name, n.symbol].dedup, b ∉ flatKeys c.units := fun b hb => hd b (List.mem_dedup.1 hb)
      have hne : [n.name, n.symbol].dedup ≠ [] := dedup_ne_nil (k := n.name) (by simp)
      have hnd : ([n.name, n.symbol].dedup).Nodup := List.nodup_dedup _
      refine ⟨regular_append hc hnd hne hdd ⟨.inl ⟨n, hid, hc1, hc2, ?_, ?_⟩, ?_⟩ hco,
        keeps_append hc.inv hnd hne hdd _, _, rfl, .inl rfl, ?_⟩
      · exact List.mem_dedup.2 (by simp)
      · exact List.mem_dedup.2 (by simp)
      · intro b hb
        exact .inl ⟨n, hid, by have := List.mem_dedup.1 hb; simpa using this⟩
      · rw [getItem_ok_iff (inv_append hc.inv hnd hne hdd _)]
        refine ⟨_, List.mem_append_right _ (List.mem_singleton.2 rfl), List.mem_dedup.2 ?_⟩
        simpa using hab
    | error x =>
      have hx := her x rfl
      subst hx
      have hnot : ∀ n, ident (exprStr e) ≠ .ok n := by
        intro n hn
        by_cases hcd : exprStr e = c!"cd"
        · have h1 := ht.mem _ _ hn
          have hab := ha.2.2 e n he hn
          exact clear_cd hcl h1 hab hcd
        · have := hn1 hcd
          simp only at this
          rw [hn] at this; cases this
      have main : ∀ ks : List Str, exprStr e ∈ ks → (∀ b ∈ ks, b = exprStr e ∨ a.single = some b) →
          RegInv ident ⟨c.units ++ [(ks.dedup, (c.next, e))], named, c.next + 1⟩ ∧
          Keeps c.units (c.units ++ [(ks.dedup, (c.next, e))]) ∧
          getItem (c.units ++ [(ks.dedup, (c.next, e))]) (exprStr e) = .ok (c.next, e) := by
        intro ks hk hks
        have hdd : ∀ b ∈ ks.dedup, b ∉ flatKeys c.units := by
          intro b hb
          rcases hks b (List.mem_dedup.1 hb) with h | h
          · rw [h]; exact hname
          · obtain ⟨_, h2⟩ := hs b h
            exact getItem_error_not_mem h2
        have hne := dedup_ne_nil hk
        refine ⟨regular_append hc (List.nodup_dedup _) hne hdd ⟨.inr ⟨hnot, List.mem_dedup.2 hk⟩, ?_⟩ hco,
          keeps_append hc.inv (List.nodup_dedup _) hne hdd _, ?_⟩
        · intro b hb
          right
          rcases hks b (List.mem_dedup.1 hb) with h | h
          · subst h; exact ⟨e, hparse, hcl, hcl, .inl rfl⟩
          · exact ⟨e, single_terms h he ha.1, ha.2.1.1 b h, hcl, .inl rfl⟩
        · rw [getItem_ok_iff (inv_append hc.inv (List.nodup_dedup _) hne hdd _)]
          exact ⟨_, List.mem_append_right _ (List.mem_singleton.2 rfl), List.mem_dedup.2 hk⟩
      simp only [if_true]
      have hso : ∃ ks : List Str, storeOther c.units (exprStr e) a.single (c.next, e)
            = c.units ++ [(ks.dedup, (c.next, e))] ∧ exprStr e ∈ ks ∧
            (∀ b ∈ ks, b = exprStr e ∨ a.single = some b) := by
        have hone : setItem c.units (exprStr e) (c.next, e)
            = c.units ++ [(([exprStr e] : List Str).dedup, (c.next, e))] := by
          rw [setItem_new hc.inv hname]
          rfl
        unfold storeOther
        cases hsi : a.single with
        | none => exact ⟨_, hone, by simp, by simp⟩
        | some s =>
          cases s with
          | nil => exact ⟨_, hone, by simp, by simp⟩
          | cons k s =>
            refine ⟨[exprStr e, k :: s], ?_, by simp, ?_⟩
            · refine setTuple_new ?_ (by simp) _
              intro b hb
              simp at hb
              rcases hb with h | h
              · rw [h]; exact hname
              · obtain ⟨_, h2⟩ := hs _ hsi
                rw [h]; exact getItem_error_not_mem h2
            · intro b hb
              simp at hb
              rcases hb with h | h
              · exact .inl h
              · right; rw [h]
      obtain ⟨ks, h1, h2, h3⟩ := hso
      obtain ⟨m1, m2, m3⟩ := main ks h2 h3
      simp only [h1]
      exact ⟨m1, m2, _, rfl, .inl rfl, m3⟩

/-- One call with a regular argument. -/
theorem callUnitIn_regular (ht : Table ident) {c : Caches} (hc : RegInv ident c) {a : Target} (ha : Regular ident a) :
    RegInv ident (callUnitIn ident c a).1 ∧ Keeps c.units (callUnitIn ident c a).1.units ∧
    ∀ e, a.terms = .ok e → ∃ v, (callUnitIn ident c a).2 = .ok v ∧ SameUnit ident e v.2 ∧
      getItem (callUnitIn ident c a).1.units (exprStr e) = .ok v := by
  have hcreate : (∀ s, a.single = some s → ∃ x, getItem c.units s = .error x) →
      RegInv ident (create ident c a).1 ∧ Keeps c.units (create ident c a).1.units ∧
      ∀ e, a.terms = .ok e → ∃ v, (create ident c a).2 = .ok v ∧ SameUnit ident e v.2 ∧
        getItem (create ident c a).1.units (exprStr e) = .ok v := by
    intro hs
    unfold create
    cases he : a.terms with
    | error x => exact ⟨hc, fun _ _ h => h, by intro e h; cases h⟩
    | ok e =>
      obtain ⟨h1, h2, v, h3, h4, h5⟩ := register_regular ht hc ha he hs
      refine ⟨h1, h2, ?_⟩
      intro e' he'
      injection he' with he'; subst he'
      exact ⟨v, h3, h4, h5⟩
  cases hsi : a.single with
  | none => rw [callUnitIn_none hsi]; exact hcreate (by rw [hsi]; intro s h; cases h)
  | some s =>
    cases hg : getItem c.units s with
    | error x =>
      rw [callUnitIn_miss hsi hg]
      exact hcreate (by intro s' h; rw [hsi] at h; injection h with h; subst h; exact ⟨x, hg⟩)
    | ok u =>
      rw [callUnitIn_hit hsi hg]
      refine ⟨hc, fun _ _ h => h, ?_⟩
      intro e he
      obtain ⟨g, h1, h2⟩ := (getItem_ok_iff hc.inv _ _).1 hg
      have hsame := only_same ht (hc.entry _ h1) h2 (ha.2.1.1 s hsi) (single_terms hsi he ha.1)
      exact ⟨u, rfl, hsame, (getItem_ok_iff hc.inv _ _).2 ⟨g, h1, own_name ha he (hc.entry _ h1) hsame⟩⟩

theorem run_regular (ht : Table ident) {c : Caches} (hc : RegInv ident c) {x : Call}
    (hr : ∀ a, x = .unit a → Regular ident a) : RegInv ident (x.run ident c) ∧ Keeps c.units (x.run ident c).units := by
  cases x with
  | unit a => obtain ⟨h1, h2, _⟩ := callUnitIn_regular ht hc (hr a rfl); exact ⟨h1, h2⟩
  | named s => exact ⟨⟨callIn_cacheOk ht.mem hc.named s, hc.inv, hc.entry⟩, fun _ _ h => h⟩

theorem runAll_regular (ht : Table ident) : ∀ (h : List Call) {c : Caches}, RegInv ident c → RegularAll ident h →
    RegInv ident (runAll ident c h) ∧ Keeps c.units (runAll ident c h).units
  | [], _, hc, _ => ⟨hc, fun _ _ h => h⟩
  | x :: h, _, hc, hr => by
    obtain ⟨h1, h2⟩ := run_regular ht hc (x := x) (fun a ha => hr a (by rw [ha]; simp))
    obtain ⟨h3, h4⟩ := runAll_regular ht h h1 (fun a ha => hr a (List.mem_cons_of_mem _ ha))
    exact ⟨h3, fun y v hy => h4 y v (h2 y v hy)⟩

theorem empty_regular : RegInv ident .empty :=
  ⟨fun _ hx => absurd hx (List.not_mem_nil), inv_empty, fun _ hx => absurd hx (List.not_mem_nil)⟩

theorem c168_generic (ht : Table ident) (h₁ h₂ : List Call) (a b : Target) (k₁ : RegularAll ident h₁)
    (k₂ : RegularAll ident h₂) (ha : Regular ident a) (hb : Regular ident b) {e f : List Term} (he : a.terms = .ok e)
    (hf : b.terms = .ok f) :
    ∃ v w, (callUnitIn ident (runAll ident .empty h₁) a).2 = .ok v ∧
      (callUnitIn ident (runAll ident (callUnitIn ident (runAll ident .empty h₁) a).1 h₂) b).2 = .ok w ∧
      (v = w ↔ SameUnit ident e f) := by
  obtain ⟨i1, _⟩ := runAll_regular ht h₁ empty_regular k₁
  obtain ⟨i2, _, r2⟩ := callUnitIn_regular ht i1 ha
  obtain ⟨v, v1, v2, v3⟩ := r2 e he
  obtain ⟨i3, p3⟩ := runAll_regular ht h₂ i2 k₂
  obtain ⟨i4, p4, r4⟩ := callUnitIn_regular ht i3 hb
  obtain ⟨w, w1, w2, w3⟩ := r4 f hf
  refine ⟨v, w, v1, w1, ?_, ?_⟩
  · intro hvw
    subst hvw
    exact v2.trans w2.symm
  · intro hsame
    have hv := p4 _ _ (p3 _ _ v3)
    obtain ⟨g, g1, _⟩ := (getItem_ok_iff i4.inv _ _).1 hv
    have hfg : exprStr f ∈ g := own_name hb hf (i4.entry _ g1) (hsame.symm.trans v2)
    have := (getItem_ok_iff i4.inv _ _).2 ⟨g, g1, hfg⟩
    rw [w3] at this; injection this with this; exact this.symm

end

theorem runAll_append (ident : Str → Res NamedUnit) (c : Caches) (h k : List Call) :
    runAll ident c (h ++ k) = runAll ident (runAll ident c h) k := List.foldl_append

/-- **C168.** Whatever units were created before, and whatever units are created in between, two calls of `Unit` give
the same object if and only if their arguments denote the same unit.  All arguments must be regular. -/
theorem c168_partial (h₁ h₂ : List Call) (a b : Target) (k₁ : RegularAll identify h₁) (k₂ : RegularAll identify h₂)
    (ha : Regular identify a) (hb : Regular identify b) {e f : List Term} (he : a.terms = .ok e)
    (hf : b.terms = .ok f) :
    ∃ v w, (callUnit (cachesAfter h₁) a).2 = .ok v ∧
      (callUnit (cachesAfter (h₁ ++ .unit a :: h₂)) b).2 = .ok w ∧ (v = w ↔ SameUnit identify e f) := by
  have h1 : ∀ h, cachesAfter h = runAll identify .empty h := by intro h; rw [cachesAfter]
  have h2 : ∀ c a, callUnit c a = callUnitIn identify c a := by intro c a; rw [callUnit]
  have h3 : runAll identify .empty (h₁ ++ .unit a :: h₂)
      = runAll identify (callUnitIn identify (runAll identify .empty h₁) a).1 h₂ := by
    rw [runAll_append]
    rw [runAll, List.foldl_cons, ← runAll, Call.run]
  rw [h2, h2, h1, h1, h3]
  exact c168_generic identify_table h₁ h₂ a b k₁ k₂ ha hb he hf

/-! ## C169: how often a string is parsed -/

section
variable {ident : Str → Res NamedUnit}

/-- A string whose unit is stored is itself stored by the next call. -/
theorem callUnitIn_registers {c : Caches} (hc : RegInv ident c) {s : Str}
    {e : List Term} (he : ofString s = .ok e) {v : Instance} (hv : getItem c.units (exprStr e) = .ok v) :
    ∃ u, getItem (callUnitIn ident c (.text s)).1.units s = .ok u := by
  cases hg : getItem c.units s with
  | ok u => rw [callUnitIn_hit (a := .text s) rfl hg]; exact ⟨u, hg⟩
  | error x =>
    rw [callUnitIn_miss (a := .text s) rfl hg]
    have hsk := getItem_error_not_mem hg
    obtain ⟨g, hng, hgm, hal⟩ := addAliases_one hv hsk
    have hcr : create ident c (.text s) = register ident c (.text s) e := by
      have h1 : (Target.text s).terms = .ok e := he
      unfold create; rw [h1]
    rw [hcr]
    unfold register
    rw [hv]
    rcases hal with ⟨hsn, _⟩ | hal
    · rw [hsn, hv] at hg; cases hg
    · simp only [hal]
      refine ⟨v, ?_⟩
      rw [getItem_alias_step hc.inv hgm hng hsk, if_pos rfl]

theorem c169_generic (ht : Table ident) (h₁ h₂ h₃ : List Call) (s : Str) (k₁ : RegularAll ident h₁)
    (k₂ : RegularAll ident h₂) (k₃ : RegularAll ident h₃) (hs : Regular ident (.text s)) {e : List Term}
    (he : ofString s = .ok e) :
    ∃ v, callUnitIn ident (runAll ident .empty (h₁ ++ .unit (.text s) :: (h₂ ++ .unit (.text s) :: h₃))) (.text s)
      = (runAll ident .empty (h₁ ++ .unit (.text s) :: (h₂ ++ .unit (.text s) :: h₃)), .ok v) := by
  rw [runAll_append]
  obtain ⟨i1, _⟩ := runAll_regular ht h₁ empty_regular k₁
  generalize runAll ident .empty h₁ = c1 at i1 ⊢
  obtain ⟨i2, _, r2⟩ := callUnitIn_regular ht i1 hs
  obtain ⟨v, _, _, hv⟩ := r2 e he
  have hstep : ∀ c t, runAll ident c (.unit (.text s) :: t) = runAll ident (callUnitIn ident c (.text s)).1 t :=
    fun c t => rfl
  rw [hstep, runAll_append]
  obtain ⟨i3, p3⟩ := runAll_regular ht h₂ i2 k₂
  generalize runAll ident (callUnitIn ident c1 (.text s)).1 h₂ = c3 at i3 p3 ⊢
  obtain ⟨i4, _, _⟩ := callUnitIn_regular ht i3 hs
  obtain ⟨u, hu⟩ := callUnitIn_registers i3 he (p3 _ _ hv)
  rw [hstep]
  obtain ⟨i5, p5⟩ := runAll_regular ht h₃ i4 k₃
  exact ⟨u, callUnitIn_hit (a := .text s) rfl (p5 _ _ hu)⟩

end

/-- **C169.** A string is parsed at most twice: once `Unit(s)` was called two times, whatever else was created before,
in between and after, the next call changes nothing and creates no object.  All arguments must be regular. -/
theorem c169_partial (h₁ h₂ h₃ : List Call) (s : Str) (k₁ : RegularAll identify h₁) (k₂ : RegularAll identify h₂)
    (k₃ : RegularAll identify h₃) (hs : Regular identify (.text s)) {e : List Term} (he : ofString s = .ok e) :
    ∃ v, callUnit (cachesAfter (h₁ ++ .unit (.text s) :: (h₂ ++ .unit (.text s) :: h₃))) (.text s)
      = (cachesAfter (h₁ ++ .unit (.text s) :: (h₂ ++ .unit (.text s) :: h₃)), .ok v) := by
  have h1 : ∀ h, cachesAfter h = runAll identify .empty h := by intro h; rw [cachesAfter]
  have h2 : ∀ c a, callUnit c a = callUnitIn identify c a := by intro c a; rw [callUnit]
  rw [h2, h1]
  exact c169_generic identify_table h₁ h₂ h₃ s k₁ k₂ k₃ hs he

/-! ## Cases -/

/-- The table, for evaluation. -/
def identFast (s : Str) : Res NamedUnit := orUnknown (lookupFast s)

theorem identify_fast : identify = identFast := by
  funext s; rw [identify_eq, lookup_fast, identFast]

/-- A string that is no name of a unit, and whose expression is none, is regular if it can be read again. -/
theorem regular_unknown {s : Str} {e : List Term} (h1 : ofString s = .ok e) (h2 : ofString (exprStr e) = .ok e)
    (h3 : lookupFast s = none) (h4 : lookupFast (exprStr e) = none) : Regular identify (.text s) := by
  have hu : ∀ e', (Target.text s).terms = .ok e' → e' = e := by
    intro e' h; have h : ofString s = .ok e' := h; rw [h1] at h; injection h with h; exact h.symm
  refine ⟨fun e' h => by rw [hu e' h]; exact h2, ⟨?_, ?_⟩, ?_⟩
  · intro t ht; injection ht with ht; subst ht; exact clear_of_unknown (by rw [lookup_fast]; exact h3)
  · intro e' h; rw [hu e' h]; exact clear_of_unknown (by rw [lookup_fast]; exact h4)
  · intro e' n h hn
    rw [hu e' h, identify_eq, lookup_fast, h4] at hn; cases hn

/-- A name or a symbol of a unit is regular if it is read as one variable, except `cd`, `candela` and `centiday`. -/
theorem regular_name {s : Str} (h1 : ofString s = .ok [⟨1, s, 1⟩]) (hc : s ∉ [c!"cd", c!"candela", c!"centiday"])
    {n : NamedUnit} (hn : lookupFast s = some n) (hs : s = n.name ∨ s = n.symbol) : Regular identify (.text s) := by
  have hu : ∀ e', (Target.text s).terms = .ok e' → e' = [⟨1, s, 1⟩] := by
    intro e' h; have h : ofString s = .ok e' := h; rw [h1] at h; injection h with h; exact h.symm
  simp only [List.mem_cons, List.not_mem_nil, or_false, not_or] at hc
  have hcl := clear_of_name h1 hc.1 hc.2.1 hc.2.2
  refine ⟨fun e' h => by rw [hu e' h, exprStr_one]; exact h1, ⟨?_, ?_⟩, ?_⟩
  · intro t ht; injection ht with ht; subst ht; exact hcl
  · intro e' h; rw [hu e' h, exprStr_one]; exact hcl
  · intro e' m h hm
    rw [hu e' h, exprStr_one] at hm ⊢
    rw [identify_eq, lookup_fast, hn] at hm
    injection hm with hm; subst hm; exact hs

theorem regular_ms : Regular identify (.text c!"m / s") :=
  regular_unknown (e := [⟨1, c!"m", 1⟩, ⟨1, c!"s", -1⟩]) (by decide +kernel) (by decide +kernel) (by decide +kernel)
    (by decide +kernel)

theorem regular_sm : Regular identify (.text c!"s^-1 m") :=
  regular_unknown (e := [⟨1, c!"m", 1⟩, ⟨1, c!"s", -1⟩]) (by decide +kernel) (by decide +kernel) (by decide +kernel)
    (by decide +kernel)

theorem regular_km : Regular identify (.text c!"km") :=
  regular_name (n := ⟨⟨c!"k", c!"kilo", 1000⟩, ⟨c!"m", c!"meter", c!"length"⟩⟩) (by decide +kernel) (by decide +kernel)
    (by decide +kernel) (by decide +kernel)

theorem regular_kilometer : Regular identify (.text c!"kilometer") :=
  regular_name (n := ⟨⟨c!"k", c!"kilo", 1000⟩, ⟨c!"m", c!"meter", c!"length"⟩⟩) (by decide +kernel) (by decide +kernel)
    (by decide +kernel) (by decide +kernel)

example : ∃ v w, (callUnit (cachesAfter [.unit (.text c!"m / s"), .named c!"cd"]) (.text c!"km")).2 = .ok v ∧
    (callUnit (cachesAfter ([.unit (.text c!"m / s"), .named c!"cd"] ++ .unit (.text c!"km")
      :: [.unit (.text c!"s^-1 m")])) (.text c!"kilometer")).2 = .ok w ∧ v = w := by
  obtain ⟨v, w, h1, h2, h3⟩ := c168_partial [.unit (.text c!"m / s"), .named c!"cd"] [.unit (.text c!"s^-1 m")]
    (.text c!"km") (.text c!"kilometer")
    (by intro a ha; simp at ha; rw [ha]; exact regular_ms) (by intro a ha; simp at ha; rw [ha]; exact regular_sm)
    regular_km regular_kilometer (e := [⟨1, c!"km", 1⟩]) (f := [⟨1, c!"kilometer", 1⟩]) (by decide +kernel)
    (by decide +kernel)
  refine ⟨v, w, h1, h2, h3.2 (.inr ⟨⟨⟨c!"k", c!"kilo", 1000⟩, ⟨c!"m", c!"meter", c!"length"⟩⟩, ?_, ?_⟩)⟩ <;>
  · rw [identify_fast]; decide +kernel

example (h : List Call) (hh : RereadsAll h) :
    ∃ i r, (callUnit (cachesAfter h) (.text c!"km")).2 = .ok (i, r) ∧ SameUnit identify [⟨1, c!"km", 1⟩] r := by
  have h1 := c167_partial h hh (.text c!"km") regular_km.1 regular_km.2.1
  have h2 : (Target.text c!"km").terms = .ok [⟨1, c!"km", 1⟩] := by decide +kernel
  rw [h2] at h1
  exact h1

/-- A history that makes names unclear, but can be read again. -/
example : RereadsAll [.unit (.text c!"candela"), .unit (.text c!"um"), .named c!"cd", .unit (.text c!"au / day")] := by
  intro a ha
  have key : ∀ {s : Str} {e : List Term}, ofString s = .ok e → ofString (exprStr e) = .ok e → Rereads (.text s) := by
    intro s e h1 h2 e' h
    have h : ofString s = .ok e' := h
    rw [h1] at h; injection h with h; rw [← h]; exact h2
  simp at ha
  rcases ha with ha | ha | ha <;> rw [ha]
  · exact key (e := [⟨1, c!"candela", 1⟩]) (by decide +kernel) (by decide +kernel)
  · exact key (e := [⟨1, c!"um", 1⟩]) (by decide +kernel) (by decide +kernel)
  · exact key (e := [⟨1, c!"au", 1⟩, ⟨1, c!"day", -1⟩]) (by decide +kernel) (by decide +kernel)

/-- The results of a list of calls of `Unit` with strings, in a fresh process. -/
def results (ident : Str → Res NamedUnit) : Caches → List Str → List (Res Instance)
  | _, [] => []
  | c, s :: ss => (callUnitIn ident c (.text s)).2 :: results ident (callUnitIn ident c (.text s)).1 ss

example : results identify .empty
    [c!"m / s", c!"m s^-1", c!"s^-1 m", c!"km", c!"kilometer", c!"m", c!"(m)", c!"meter", c!"m / s"]
    = [.ok (0, [⟨1, c!"m", 1⟩, ⟨1, c!"s", -1⟩]), .ok (0, [⟨1, c!"m", 1⟩, ⟨1, c!"s", -1⟩]),
       .ok (0, [⟨1, c!"m", 1⟩, ⟨1, c!"s", -1⟩]), .ok (2, [⟨1, c!"km", 1⟩]), .ok (2, [⟨1, c!"km", 1⟩]),
       .ok (3, [⟨1, c!"m", 1⟩]), .ok (3, [⟨1, c!"m", 1⟩]), .ok (3, [⟨1, c!"m", 1⟩]),
       .ok (0, [⟨1, c!"m", 1⟩, ⟨1, c!"s", -1⟩])] := by
  rw [identify_fast]; decide +kernel

/-- **C167, violated.** After `Unit('candela')`, `Unit('cd')` is the candela, although it is the centiday in a fresh
process; after `Unit('au')`, `Unit('astronomical unit')` is the astronomical unit, although it is a product of two
unknown units in a fresh process; after `Unit('ohm')`, `Unit('Ω')` is the ohm, although it fails in a fresh process. -/
theorem c167_counterexample :
    results identify .empty [c!"cd"] = [.ok (0, [⟨1, c!"cd", 1⟩])] ∧
    results identify .empty [c!"candela", c!"cd"] = [.ok (0, [⟨1, c!"candela", 1⟩]), .ok (0, [⟨1, c!"candela", 1⟩])] ∧
    ¬ SameUnit identify [⟨1, c!"cd", 1⟩] [⟨1, c!"candela", 1⟩] ∧
    results identify .empty [c!"astronomical unit"] = [.ok (0, [⟨1, c!"astronomical", 1⟩, ⟨1, c!"unit", 1⟩])] ∧
    results identify .empty [c!"au", c!"astronomical unit"] = [.ok (0, [⟨1, c!"au", 1⟩]), .ok (0, [⟨1, c!"au", 1⟩])] ∧
    (∃ x, results identify .empty [c!"Ω"] = [.error x]) ∧
    results identify .empty [c!"ohm", c!"Ω"] = [.ok (0, [⟨1, c!"ohm", 1⟩]), .ok (0, [⟨1, c!"ohm", 1⟩])] := by
  rw [identify_fast]
  refine ⟨by decide +kernel, by decide +kernel, ?_, by decide +kernel, by decide +kernel, ?_, by decide +kernel⟩
  · rintro (h | ⟨n, h1, h2⟩)
    · exact absurd h (by decide +kernel)
    · have : identFast (exprStr [⟨1, c!"cd", 1⟩]) = identFast (exprStr [⟨1, c!"candela", 1⟩]) := h1.trans h2.symm
      exact absurd this (by decide +kernel)
  · refine ⟨.named "ParsingValueError", ?_⟩
    decide +kernel

/-- **C168, violated.** Two calls of `Unit('um')` give two objects, and `Unit('μm')` is the second. -/
theorem c168_counterexample :
    results identify .empty [c!"um", c!"um", c!"micrometer"]
      = [.ok (0, [⟨1, c!"um", 1⟩]), .ok (1, [⟨1, c!"um", 1⟩]), .ok (1, [⟨1, c!"um", 1⟩])] := by
  rw [identify_fast]; decide +kernel

/-- **C169, violated.** Contrary to the comment in the code, a string may be parsed twice, such as `(m)`; and `um` is
parsed by every call. -/
theorem c169_counterexample :
    (runAll identify .empty [.unit (.text c!"(m)")]).next = 1 ∧
    (runAll identify .empty [.unit (.text c!"(m)"), .unit (.text c!"(m)")]).next = 2 ∧
    (runAll identify .empty [.unit (.text c!"(m)"), .unit (.text c!"(m)"), .unit (.text c!"(m)")]).next = 2 ∧
    (runAll identify .empty [.unit (.text c!"um"), .unit (.text c!"um"), .unit (.text c!"um")]).next = 3 := by
  rw [identify_fast]; refine ⟨?_, ?_, ?_, ?_⟩ <;> decide +kernel

end Verif.Systems
