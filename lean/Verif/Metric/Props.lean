import Verif.Metric.Lookup
import Verif.Metric.ConvertLemmas
import Verif.Metric.Conversions

/-!
# Properties of named units and of the conversion search

C27, C28, C29, C30, C72.
-/

set_option linter.unusedSimpArgs false
set_option linter.unusedSectionVars false

namespace Verif.Metric

open Verif.Py Verif.Aliased

/-! ## C27: every symbol denotes one unit -/

/-- Specification: how a prefix and a base unit are written together. -/
def Spells (s : Str) (p : Prefix) (u : BaseUnit) : Prop :=
  s = p.name ++ u.name ∨ s = p.symbol ++ u.symbol ∨ (p.symbol = ['μ'] ∧ s = 'u' :: u.symbol)

theorem spells_iff {s : Str} {p : Prefix} {u : BaseUnit} : Spells s p u ↔ s ∈ aliasesOf p u := by
  unfold Spells aliasesOf
  by_cases h : p.symbol = ['μ'] <;> simp [h, or_assoc]

/-- **C27, violated.** The symbol `cd` of the candela is also the symbol of the centiday, and the
table resolves it to the latter. -/
theorem c27_counterexample :
    ∃ p ∈ prefixes, ∃ u ∈ units, ∃ q ∈ prefixes, ∃ v ∈ units,
      u.name = c!"candela" ∧ v.name = c!"day" ∧ Spells c!"cd" p u ∧ Spells c!"cd" q v ∧
      identify c!"cd" = .ok ⟨q, v⟩ := by
  refine ⟨⟨c!"", c!"", 1⟩, by decide +kernel, ⟨c!"cd", c!"candela", c!"luminous intensity"⟩, by decide +kernel,
    ⟨c!"c", c!"centi", 1 / 100⟩, by decide +kernel, ⟨c!"d", c!"day", c!"time"⟩, by decide +kernel, rfl, rfl,
    Or.inr (Or.inl rfl), Or.inr (Or.inl rfl), ?_⟩
  rw [identify_eq, lookup_fast]
  decide +kernel

/-- **C27.** Apart from `cd`, no string is a name or symbol of two different pairs of prefix and
base unit, and each is resolved to its pair; a string that is not in the table is rejected. -/
theorem c27_partial (s : Str) (hs : s ≠ c!"cd") :
    (∀ p ∈ prefixes, ∀ u ∈ units, ∀ q ∈ prefixes, ∀ v ∈ units,
      Spells s p u → Spells s q v → p = q ∧ u = v) ∧
    (∀ p ∈ prefixes, ∀ u ∈ units, Spells s p u → identify s = .ok ⟨p, u⟩) ∧
    ((∀ p ∈ prefixes, ∀ u ∈ units, ¬ Spells s p u) →
      identify s = .error (.named "UnitParsingError")) := by
  have huniq : ∀ p ∈ prefixes, ∀ u ∈ units, ∀ q ∈ prefixes, ∀ v ∈ units,
      Spells s p u → Spells s q v → p = q ∧ u = v := by
    intro p hp u hu q hq v hv h1 h2
    have := alias_unique (u := ⟨p, u⟩) (v := ⟨q, v⟩) (mem_allUnits.2 ⟨hp, hu⟩)
      (mem_allUnits.2 ⟨hq, hv⟩) (spells_iff.1 h1) (spells_iff.1 h2)
    rcases this with h | h
    · injection h with h3 h4; exact ⟨h3, h4⟩
    · exact absurd h hs
  refine ⟨huniq, ?_, ?_⟩
  · intro p hp u hu h
    obtain ⟨v, hv⟩ := lookup_isSome (u := ⟨p, u⟩) (mem_allUnits.2 ⟨hp, hu⟩) (spells_iff.1 h)
    rw [identify_eq, hv]
    obtain ⟨h1, h2⟩ := lookup_some hv
    obtain ⟨h3, h4⟩ := mem_allUnits.1 h1
    obtain ⟨h5, h6⟩ := huniq p hp u hu v.pre h3 v.base h4 h (spells_iff.2 h2)
    subst h5 h6
    rfl
  · intro h
    rw [identify_eq]
    cases hl : lookup s with
    | none => rfl
    | some v =>
      obtain ⟨h1, h2⟩ := lookup_some hl
      obtain ⟨h3, h4⟩ := mem_allUnits.1 h1
      exact absurd (spells_iff.2 h2) (h _ h3 _ h4)

/-- The names (as opposed to the symbols) are never ambiguous. -/
theorem c27_names (p : Prefix) (hp : p ∈ prefixes) (u : BaseUnit) (hu : u ∈ units) :
    identify (p.name ++ u.name) = .ok ⟨p, u⟩ := by
  have hne : p.name ++ u.name ≠ c!"cd" := by
    have := List.all_eq_true.1 (List.all_eq_true.1 name_ne_cd _ hp) _ hu
    simpa using this
  exact (c27_partial _ hne).2.1 p hp u hu (Or.inl rfl)

example : identify c!"um" = .ok ⟨⟨c!"μ", c!"micro", 1/1000000⟩, ⟨c!"m", c!"meter", c!"length"⟩⟩ :=
  (c27_partial c!"um" (by decide +kernel)).2.1 _ (by decide +kernel) _ (by decide +kernel) (Or.inr (Or.inr ⟨rfl, rfl⟩))

/-! ## C28: ratios of named units -/

/-- **C28.** Ratios of named units with the same base unit and non-zero prefix factors are the
values of a groupoid, and `//` is its inverse; other pairs are rejected. -/
theorem c28_ratio (u v w : NamedUnit) (hu : u.scale ≠ 0) (hv : v.scale ≠ 0) (hw : w.scale ≠ 0) :
    ratio u u = .ok 1 ∧
    (u.base = v.base → ∃ r s, ratio u v = .ok r ∧ ratio v u = .ok s ∧ r * s = 1 ∧
      r * v.scale = u.scale ∧ NamedUnit.floordiv u v = .ok s) ∧
    (u.base = v.base → v.base = w.base → ∃ r s t, ratio u v = .ok r ∧ ratio v w = .ok s ∧
      ratio u w = .ok t ∧ r * s = t) ∧
    (u.base ≠ v.base → ratio u v = .error .valueError) := by
  have key : ∀ a b : NamedUnit, a.base = b.base → b.scale ≠ 0 → ratio a b = .ok (a.scale / b.scale) := by
    intro a b h hb
    unfold ratio
    split
    · next h' => subst h'; rw [div_self hb]
    · simp [h, hb]
  refine ⟨by unfold ratio; simp, ?_, ?_, ?_⟩
  · intro h
    refine ⟨_, _, key u v h hv, key v u h.symm hu, ?_, ?_, key v u h.symm hu⟩ <;> field_simp
  · intro h h'
    refine ⟨_, _, _, key u v h hv, key v w h' hw, key u w (h.trans h') hw, ?_⟩
    field_simp
  · intro h
    unfold ratio
    rw [if_neg (by rintro rfl; exact h rfl), if_pos (fun h' => h h'.symm)]

/-- The only prefix of the table with factor zero is the blank one. -/
theorem c28_zero (p : Prefix) (hp : p ∈ prefixes) : p.factor = 0 ↔ p.symbol = [' '] := by
  revert p; decide +kernel

example : ratio ⟨⟨c!"", c!"", 1⟩, ⟨c!"m", c!"meter", c!"length"⟩⟩
    ⟨⟨c!"c", c!"centi", 1 / 100⟩, ⟨c!"m", c!"meter", c!"length"⟩⟩ = .ok 100 := by decide +kernel

/-! ## C72: named units do not depend on the history -/

theorem callIn_hit {ident : Str → Res NamedUnit} {c : AMap Str NamedUnit} {s : Str} {u : NamedUnit}
    (h : Aliased.getItem c s = .ok u) : callIn ident c s = (c, .ok u) := by
  unfold callIn; rw [h]

theorem callIn_miss {ident : Str → Res NamedUnit} {c : AMap Str NamedUnit} {s : Str} {x : Err}
    {u : NamedUnit} (h : Aliased.getItem c s = .error x) (hi : ident s = .ok u) :
    callIn ident c s = (setTuple c [u.name, u.symbol] u, .ok u) := by
  unfold callIn; rw [h, hi]

theorem callNamed_hit {c : AMap Str NamedUnit} {s : Str} {u : NamedUnit}
    (h : Aliased.getItem c s = .ok u) : callNamed c s = (c, .ok u) := by
  rw [callNamed]; exact callIn_hit h

theorem callNamed_miss {c : AMap Str NamedUnit} {s : Str} {x : Err}
    {u : NamedUnit} (h : Aliased.getItem c s = .error x) (hi : identify s = .ok u) :
    callNamed c s = (setTuple c [u.name, u.symbol] u, .ok u) := by
  rw [callNamed]; exact callIn_miss h hi

theorem cacheAfter_nil : cacheAfter [] = [] := by simp only [cacheAfter, List.foldl_nil]

theorem foldl_one {α β : Type _} (f : β → α → β) (a : β) (s : α) : [s].foldl f a = f a s := rfl

theorem cacheAfter_one (s : Str) : cacheAfter [s] = (callNamed [] s).1 := by
  rw [cacheAfter]
  exact foldl_one (fun c s => (callNamed c s).1) [] s

theorem callIn_result {ident : Str → Res NamedUnit} (c : AMap Str NamedUnit) (s : Str) :
    (∃ u, Aliased.getItem c s = .ok u ∧ (callIn ident c s).2 = .ok u) ∨
    (callIn ident c s).2 = ident s := by
  unfold callIn
  cases Aliased.getItem c s with
  | ok u => exact Or.inl ⟨u, rfl, rfl⟩
  | error x => right; cases ident s <;> rfl

/-- **C72, violated.** `NamedUnit('cd')` is the centiday in a fresh session, but the candela if
`NamedUnit('candela')` was called before. -/
theorem c72_counterexample :
    ∃ u v : NamedUnit, u.base.name = c!"candela" ∧ v.base.name = c!"day" ∧
      (callNamed (cacheAfter []) c!"cd").2 = .ok v ∧
      (callNamed (cacheAfter [c!"candela"]) c!"cd").2 = .ok u := by
  refine ⟨⟨⟨c!"", c!"", 1⟩, ⟨c!"cd", c!"candela", c!"luminous intensity"⟩⟩,
    ⟨⟨c!"c", c!"centi", 1 / 100⟩, ⟨c!"d", c!"day", c!"time"⟩⟩, rfl, rfl, ?_, ?_⟩
  · have h : identify c!"cd" = .ok ⟨⟨c!"c", c!"centi", 1 / 100⟩, ⟨c!"d", c!"day", c!"time"⟩⟩ := by
      rw [identify_eq, lookup_fast]; decide +kernel
    rw [cacheAfter_nil, callNamed_miss (x := .keyError) (by decide +kernel) h]
  · have h : identify c!"candela"
        = .ok ⟨⟨c!"", c!"", 1⟩, ⟨c!"cd", c!"candela", c!"luminous intensity"⟩⟩ := by
      rw [identify_eq, lookup_fast]; decide +kernel
    rw [cacheAfter_one, callNamed_miss (x := .keyError) (by decide +kernel) h]
    rw [callNamed_hit (u := ⟨⟨c!"", c!"", 1⟩, ⟨c!"cd", c!"candela", c!"luminous intensity"⟩⟩)
      (by decide +kernel)]

/-- **C72.** Apart from `cd`, what a string denotes does not depend on the named units created
before. -/
theorem c72_partial (history : List Str) (s : Str) (hs : s ≠ c!"cd") :
    (callNamed (cacheAfter history) s).2 = (callNamed [] s).2 := by
  have key : ∀ c, CacheOk c → (callNamed c s).2 = identify s := by
    intro c hc
    rcases callIn_result (ident := identify) c s with ⟨u, hu, h⟩ | h
    · have hcall : (callNamed c s).2 = .ok u := h
      rw [hcall]
      obtain ⟨x, hx, hsx, rfl⟩ := getItem_mem hu
      obtain ⟨h1, h2⟩ := hc x hx
      obtain ⟨h3, h4⟩ := mem_allUnits.1 h1
      have hsp : Spells s x.2.pre x.2.base := by
        rcases h2 s hsx with h | h
        · exact Or.inl h
        · exact Or.inr (Or.inl h)
      exact ((c27_partial s hs).2.1 _ h3 _ h4 hsp).symm
    · exact h
  rw [key _ (cacheAfter_ok history), key [] (by intro x hx; cases hx)]

example : (callNamed (cacheAfter [c!"candela", c!"km", c!"cd"]) c!"kilometer").2
    = .ok ⟨⟨c!"k", c!"kilo", 1000⟩, ⟨c!"m", c!"meter", c!"length"⟩⟩ := by
  rw [c72_partial _ _ (by decide +kernel)]
  have h := c27_names ⟨c!"k", c!"kilo", 1000⟩ (by decide +kernel)
    ⟨c!"m", c!"meter", c!"length"⟩ (by decide +kernel)
  exact congrArg Prod.snd (callNamed_miss (x := .keyError) (by decide +kernel) h)

/-! ## C29: the conversion search is sound and terminates -/

section
variable {U B K : Type _} [DecidableEq U] [DecidableEq B] [DecidableEq K] [Field K]

/-- **C29.** On every graph of declared conversions (`base`), for every table of named units, every
order of the units, and every list of units already checked, the search ends after at most as many
nested calls as there are connections, plus one; and if it returns a factor then this is not zero,
and it is the product of the factors along a chain of declared conversions, inverses of declared
conversions, alternative spellings and changes of metric prefix. -/
theorem c29_search (base : List ((U × U) × K)) (units : List U) (named : U → Option (Named U B K))
    (u0 u1 : U) :
    ∃ o, (∀ more, (convert ⟨mkConns base, units, named⟩
        ((mkConns base).length + 1 + more) [] u0 u1).map (·.1) = some o) ∧
      ∀ f, o = some f → f ≠ 0 ∧ Chain base named u0 u1 f := by
  let e : Env U B K := ⟨mkConns base, units, named⟩
  obtain ⟨o, c, h, _⟩ := convert_total e u1 (enough e) [] u0 (pending_lt_enough e _)
  refine ⟨o, ?_, ?_⟩
  · intro more
    have := convert_fuel e u1 _ _ _ _ h more
    unfold enough at this
    rw [this]; rfl
  · intro f hf
    subst hf
    have := convert_sound e (base := base) rfl _ _ _ _ _ _ h
    exact ⟨this.2, this.1⟩

/-- Specification: an assignment of magnitudes to units that agrees with the declared conversions
and with the table of named units. (Units with scale zero, if any, are left free.) -/
def Consistent (base : List ((U × U) × K)) (named : U → Option (Named U B K)) (mag : U → K) : Prop :=
  (∀ u, mag u ≠ 0) ∧ (∀ u v w, ((u, v), w) ∈ base → mag u = w * mag v) ∧
  (∀ u n, named u = some n → mag n.symbol = mag u ∧ mag n.name = mag u) ∧
  (∀ u v m n, named u = some m → named v = some n → m.base = n.base → m.scale ≠ 0 → n.scale ≠ 0 →
    mag u * n.scale = mag v * m.scale)

theorem chain_consistent {base : List ((U × U) × K)} {named : U → Option (Named U B K)} {mag : U → K}
    (h : Consistent base named mag) {u v : U} {f : K} (hc : Chain base named u v f) (hf : f ≠ 0) :
    f = mag u / mag v := by
  obtain ⟨h0, h1, h2, h3⟩ := h
  induction hc with
  | nil => rw [div_self (h0 _)]
  | @cons u v t w f s _ ih =>
    have hw0 : w ≠ 0 := left_ne_zero_of_mul hf
    have hw : w = mag u / mag v := by
      cases s with
      | declared hd => rw [h1 _ _ _ hd, mul_div_assoc, div_self (h0 _), mul_one]
      | inverse hd hne =>
        rw [h1 _ _ _ hd]
        have := h0 u
        field_simp
      | other hn hx =>
        rcases hx with rfl | rfl
        · rw [(h2 _ _ hn).1, div_self (h0 _)]
        · rw [(h2 _ _ hn).2, div_self (h0 _)]
      | unother hn hx =>
        rcases hx with rfl | rfl
        · rw [(h2 _ _ hn).1, div_self (h0 _)]
        · rw [(h2 _ _ hn).2, div_self (h0 _)]
      | @rescale _ _ m n hm hn hb =>
        have hm0 : m.scale ≠ 0 := fun h => hw0 (by rw [h, zero_div])
        have hn0 : n.scale ≠ 0 := fun h => hw0 (by rw [h, div_zero])
        rw [div_eq_div_iff hn0 (h0 _), mul_comm, h3 _ _ _ _ hm hn hb hm0 hn0]
    rw [ih (right_ne_zero_of_mul hf), hw, div_mul_div_cancel₀ (h0 _)]

/-- **C29, in terms of magnitudes.** If magnitudes can be assigned to the units consistently, then
every factor found is the ratio of the magnitudes; in particular it does not depend on the chain
found nor on the order in which units are tried. -/
theorem c29_magnitude (base : List ((U × U) × K)) (units : List U)
    (named : U → Option (Named U B K)) (mag : U → K) (h : Consistent base named mag)
    (u0 u1 : U) (f : K)
    (hf : convertStrings ⟨mkConns base, units, named⟩ u0 u1 = some (some f)) :
    f = mag u0 / mag u1 := by
  obtain ⟨o, h1, h2⟩ := c29_search base units named u0 u1
  have := h1 0
  unfold convertStrings enough at hf
  rw [Nat.add_zero, hf] at this
  injection this with this
  exact chain_consistent h (h2 f this.symm).2 (h2 f this.symm).1

/-- A small graph for the examples: two declared conversions, no named units. -/
def smallGraph : List ((String × String) × Rat) := [(("J", "erg"), 10000000), (("eV", "J"), 3 / 20)]

example : convertStrings (B := Unit) ⟨mkConns smallGraph, [], fun _ => none⟩ "eV" "erg"
    = some (some 1500000) := by decide +kernel

example : Consistent (B := Unit) smallGraph (fun _ => none)
    (fun u => if u = "J" then 10000000 else if u = "eV" then 1500000 else 1) := by
  refine ⟨?_, ?_, by simp, by simp⟩
  · intro u; dsimp only; split_ifs <;> norm_num
  · intro u v w h
    simp only [smallGraph, List.mem_cons, List.not_mem_nil, or_false, Prod.mk.injEq] at h
    rcases h with ⟨⟨rfl, rfl⟩, rfl⟩ | ⟨⟨rfl, rfl⟩, rfl⟩ 
    · simp
    · simp; norm_num

/-! ## C30: a declared chain is found -/

/-- **C30.** For every graph of declared conversions with non-zero weights: if two units are joined
by a chain of declared conversions (used in either direction) then the search finds a factor,
whatever the table of named units and the order of the units. -/
theorem c30_complete (base : List ((U × U) × K)) (hb : ∀ p ∈ base, p.2 ≠ 0) (units : List U)
    (named : U → Option (Named U B K)) (u0 u1 : U)
    (h : Relation.ReflTransGen (Declared base) u0 u1) :
    ∃ f, convertStrings ⟨mkConns base, units, named⟩ u0 u1 = some (some f) := by
  let e : Env U B K := ⟨mkConns base, units, named⟩
  obtain ⟨o, c, hr, _⟩ := convert_total e u1 (enough e) [] u0 (pending_lt_enough e _)
  have hcs : convertStrings e u0 u1 = some o := by unfold convertStrings; rw [hr]; rfl
  cases o with
  | some f => exact ⟨f, hcs⟩
  | none =>
    exfalso
    obtain ⟨h1, h2⟩ := convert_none e (base := base) rfl hb u1 _ _ _ _ hr
    have hall : ∀ v, Relation.ReflTransGen (Declared base) u0 v → v ∈ c := by
      intro v hv
      induction hv with
      | refl => exact h1 _ (by simp)
      | tail _ hd ih =>
        obtain ⟨w, hw⟩ := declared_conns e (base := base) rfl hd
        exact (h2 _ ih (by simp)).2 _ _ hw
    have := (h2 u1 (hall u1 h) (by simp)).1
    rw [direct_self] at this
    cases this

example : ∃ f, convertStrings (B := Unit) ⟨mkConns smallGraph, [], fun _ => none⟩ "erg" "eV"
    = some (some f) := by
  apply c30_complete
  · decide +kernel
  · have h1 : Declared smallGraph "erg" "J" := ⟨10000000, Or.inr (by decide +kernel)⟩
    have h2 : Declared smallGraph "J" "eV" := ⟨3 / 20, Or.inr (by decide +kernel)⟩
    exact .tail (.tail .refl h1) h2

end

end Verif.Metric
