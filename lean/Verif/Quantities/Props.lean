import Verif.Quantities.Model
import Mathlib.Algebra.Order.Field.Rat
import Mathlib.Tactic.Linarith
import Mathlib.Tactic.FieldSimp
import Mathlib.Tactic.Ring

/-!
# C176-C180: comparing, copying, converting and indexing quantities
-/

set_option linter.unusedSimpArgs false
set_option linter.unusedSectionVars false

namespace Verif.Quantities

open Verif.Py Verif.Metadata

variable {U : Type}

/-! ## C176: comparison -/

/-- Specification: the two quantities do not have different names. -/
def SameName (x : Qty U) : Arg U → Prop
  | .number _ => True
  | .qty y => ∀ m n, x.name = some m → y.name = some n → ∀ a, a ∈ m ↔ a ∈ n

/-- Specification: the two quantities do not have different units. -/
def SameUnit (ueq : U → U → Bool) (x : Qty U) : Arg U → Prop
  | .number _ => True
  | .qty y => ueq x.unit y.unit = true

theorem nameEq_iff (m n : List Str) : nameEq m n = true ↔ ∀ a, a ∈ m ↔ a ∈ n := by
  unfold nameEq
  rw [Bool.and_eq_true, List.all_eq_true, List.all_eq_true]
  simp only [decide_eq_true_eq]
  exact ⟨fun h a => ⟨h.1 a, h.2 a⟩, fun h => ⟨fun a => (h a).1, fun a => (h a).2⟩⟩

theorem nameEq_comm (m n : List Str) : nameEq m n = nameEq n m := by
  unfold nameEq; rw [Bool.and_comm]

theorem check_iff (ueq : U → U → Bool) (hsym : ∀ u v, ueq u v = ueq v u) (x : Qty U) (y : Arg U) :
    (SameUnit ueq x y ∧ SameName x y → check ueq x y = .ok ()) ∧
    (¬ (SameUnit ueq x y ∧ SameName x y) → check ueq x y = .error .valueError) := by
  cases y with
  | number z =>
    refine ⟨fun _ => ?_, fun h => absurd ⟨trivial, trivial⟩ h⟩
    unfold check consistentUnit consistentName
    simp
  | qty y =>
    obtain ⟨xk, xd, xu, xn⟩ := x
    obtain ⟨yk, yd, yu, yn⟩ := y
    unfold check consistentUnit consistentName SameUnit SameName
    simp only
    rw [hsym xu yu]
    cases hu : ueq yu xu with
    | false => simp
    | true =>
      cases xn with
      | none => simp
      | some m =>
        cases yn with
        | none => simp
        | some n =>
          simp only [Option.isSome_some, true_and, not_true_eq_false, if_false, Option.some.injEq]
          rw [nameEq_comm n m]
          cases hn : nameEq m n with
          | true =>
            have h1 := (nameEq_iff m n).1 hn
            simp only [not_true_eq_false, if_false, true_and]
            refine ⟨fun _ => trivial, fun h => absurd ?_ h⟩
            rintro _ _ rfl rfl; exact h1
          | false =>
            have h1 : ¬ ∀ a, a ∈ m ↔ a ∈ n := fun h => by rw [(nameEq_iff m n).2 h] at hn; cases hn
            simp only [Bool.false_eq_true, not_false_eq_true, if_true, true_and]
            exact ⟨fun h => absurd (h m n rfl rfl) h1, fun _ => trivial⟩

/-- **C176.** Quantities with the same unit and no different names compare like their values, and also with numbers:
exactly one of `<`, `==` and `>` holds, `<=` is `<` or `==`, and `>=` is `>` or `==`. -/
theorem c176_partial (ueq : U → U → Bool) (hsym : ∀ u v, ueq u v = ueq v u) (x : Qty U) (y : Arg U)
    (hu : SameUnit ueq x y) (hn : SameName x y) :
    (compare ueq .lt x y = .ok true ∧ equal ueq x y = false ∧ compare ueq .gt x y = .ok false ∧
      compare ueq .le x y = .ok true ∧ compare ueq .ge x y = .ok false ∧ x.data < y.data) ∨
    (compare ueq .lt x y = .ok false ∧ equal ueq x y = true ∧ compare ueq .gt x y = .ok false ∧
      compare ueq .le x y = .ok true ∧ compare ueq .ge x y = .ok true ∧ x.data = y.data) ∨
    (compare ueq .lt x y = .ok false ∧ equal ueq x y = false ∧ compare ueq .gt x y = .ok true ∧
      compare ueq .le x y = .ok false ∧ compare ueq .ge x y = .ok true ∧ y.data < x.data) := by
  have hc : ∀ c, compare ueq c x y = .ok (c.holds x.data y.data) := by
    intro c
    unfold compare
    rw [(check_iff ueq hsym x y).1 ⟨hu, hn⟩]
    rfl
  have he : equal ueq x y = decide (y.data = x.data) := by
    cases y with
    | number z => rfl
    | qty y =>
      unfold equal
      simp only [Arg.data]
      by_cases hd : y.data = x.data
      · have hu' : ueq x.unit y.unit = true := hu
        rw [if_neg (by simpa using hd), hu']
        simp only [not_true_eq_false, if_false, hd, decide_true]
        cases hx : x.name with
        | none => rfl
        | some m =>
          cases hy : y.name with
          | none => rfl
          | some n => exact (nameEq_iff m n).2 (hn m n hx hy)
      · rw [if_pos hd]; simp [hd]
  simp only [hc, he, Cmp.holds]
  rcases lt_trichotomy x.data y.data with h | h | h
  · left; refine ⟨?_, ?_, ?_, ?_, ?_, h⟩
    · simp [h]
    · simp [ne_of_gt h]
    · simp [le_of_lt h]
    · simp [le_of_lt h]
    · simp [h]
  · right; left
    simp [h]
  · right; right; refine ⟨?_, ?_, ?_, ?_, ?_, h⟩
    · simp [le_of_lt h]
    · simp [ne_of_lt h]
    · simp [h]
    · simp [h]
    · simp [le_of_lt h]

/-- **C176.** Quantities with different units are not ordered, and not equal. -/
theorem c176_units (ueq : U → U → Bool) (hsym : ∀ u v, ueq u v = ueq v u) (x : Qty U) (y : Arg U)
    (hu : ¬ SameUnit ueq x y) :
    (∀ c, compare ueq c x y = .error .valueError) ∧ equal ueq x y = false := by
  constructor
  · intro c
    unfold compare
    rw [(check_iff ueq hsym x y).2 (fun h => hu h.1)]
    rfl
  · cases y with
    | number z => exact absurd trivial hu
    | qty y =>
      have hu' : ¬ ueq x.unit y.unit = true := hu
      unfold equal
      simp [hu']

/-- **C176.** Equality is reflexive and symmetric. -/
theorem c176_equal (ueq : U → U → Bool) (hrefl : ∀ u, ueq u u = true) (hsym : ∀ u v, ueq u v = ueq v u) (x y : Qty U) :
    equal ueq x (.qty x) = true ∧ equal ueq x (.qty y) = equal ueq y (.qty x) := by
  constructor
  · unfold equal
    simp only [ne_eq, not_true_eq_false, if_false, hrefl]
    cases x.name with
    | none => rfl
    | some m => exact (nameEq_iff m m).2 (fun _ => Iff.rfl)
  · obtain ⟨xk, xd, xu, xn⟩ := x
    obtain ⟨yk, yd, yu, yn⟩ := y
    unfold equal
    simp only
    rw [hsym xu yu]
    by_cases h : yd = xd
    · have h' := h.symm
      cases hu : ueq yu xu with
      | false => simp [h]
      | true =>
        cases xn with
        | none => cases yn <;> simp [h]
        | some m =>
          cases yn with
          | none => simp [h]
          | some n => simp [h, nameEq_comm m n]
    · have h' : ¬ xd = yd := fun hc => h hc.symm
      simp [h, h']

/-- **C176**, for vectors. They are equal iff their units and their values are, in the same order; this is an equivalence
if equality of units is. -/
theorem c176_vectors (ueq : U → U → Bool) (hrefl : ∀ u, ueq u u = true) (hsym : ∀ u v, ueq u v = ueq v u)
    (htrans : ∀ u v w, ueq u v = true → ueq v w = true → ueq u w = true) (x y z : Vec U) :
    (Vec.equal ueq x y = true ↔ ueq x.unit y.unit = true ∧ x.data.length = y.data.length ∧
      ∀ k (h : k < x.data.length) (h' : k < y.data.length), x.data[k] = y.data[k]) ∧
    Vec.equal ueq x x = true ∧ Vec.equal ueq x y = Vec.equal ueq y x ∧
    (Vec.equal ueq x y = true → Vec.equal ueq y z = true → Vec.equal ueq x z = true) := by
  unfold Vec.equal
  refine ⟨?_, by simp [hrefl], ?_, ?_⟩
  · rw [Bool.and_eq_true, decide_eq_true_eq]
    refine and_congr_right fun _ => ⟨fun h => ⟨by rw [h], fun k _ _ => by simp [h]⟩, fun h => ?_⟩
    exact List.ext_getElem h.1 h.2
  · rw [hsym x.unit y.unit]
    congr 1
    rw [decide_eq_decide]
    exact eq_comm
  · simp only [Bool.and_eq_true, decide_eq_true_eq]
    rintro ⟨h1, h2⟩ ⟨h3, h4⟩
    exact ⟨htrans _ _ _ h1 h3, h2.trans h4⟩

/-- **C176, violated.** Two scalars with the same unit and different names cannot be ordered: 1 m is not less than 2 m. -/
theorem c176_counterexample :
    let x : Qty Str := ⟨.scalar, 1, c!"m", some [c!"x"]⟩
    let y : Qty Str := ⟨.scalar, 2, c!"m", some [c!"y"]⟩
    compare (fun u v => u = v) .lt x (.qty y) = .error .valueError ∧ x.data < y.data := by
  refine ⟨rfl, ?_⟩
  decide

/-- **C176, violated.** Equality is not transitive: 2 m is equal to 2, and 2 to 2 s; also a quantity without a name is equal
to quantities with different names. -/
theorem c176_transitive_counterexample :
    let m : Qty Str := ⟨.scalar, 2, c!"m", some noName⟩
    let s : Qty Str := ⟨.scalar, 2, c!"s", some noName⟩
    let a : Qty Str := ⟨.scalar, 2, c!"m", some [c!"a"]⟩
    let b : Qty Str := ⟨.scalar, 2, c!"m", some [c!"b"]⟩
    let q : Qty Str := ⟨.measurable, 2, c!"m", none⟩
    let ueq : Str → Str → Bool := fun u v => u = v
    (equal ueq m (.number 2) = true ∧ equal ueq s (.number 2) = true ∧ equal ueq m (.qty s) = false) ∧
    (equal ueq a (.qty q) = true ∧ equal ueq q (.qty b) = true ∧ equal ueq a (.qty b) = false) := by
  decide

example : compare (fun u v : Str => u = v) .lt ⟨.scalar, 1, c!"m", some [c!"x", c!"X"]⟩
    (.qty ⟨.scalar, 2, c!"m", some [c!"X", c!"x"]⟩) = .ok true := rfl

example : compare (fun u v : Str => u = v) .lt ⟨.scalar, 1, c!"m", some [c!"x"]⟩
    (.qty ⟨.scalar, 2, c!"cm", some [c!"x"]⟩) = .error .valueError := rfl

/-! ## C177: creating a quantity from a quantity -/

/-- **C177.** A `measurable.Quantity` created from a quantity has its value and unit; a `physical.Quantity` created from a
named quantity also has its name. -/
theorem c177_partial (one : U) (q : Qty U) (hq : q.Valid) (unit : Option U) (name : Option (List Str)) :
    (∃ r, create one .measurable (.qty q) unit name = .ok r ∧ r.data = q.data ∧ r.unit = q.unit) ∧
    (q.kind ≠ .measurable →
      ∃ r, create one .named (.qty q) unit name = .ok r ∧ r.data = q.data ∧ r.unit = q.unit ∧ r.name = q.name) ∧
    (q.kind = .measurable → create one .named (.qty q) unit name = .error .attributeError) := by
  refine ⟨⟨_, rfl, rfl, rfl⟩, ?_, ?_⟩
  · intro hk
    obtain ⟨n, hn⟩ := Option.isSome_iff_exists.1 (hq.2 hk)
    refine ⟨⟨.named, q.data, q.unit, some n⟩, ?_, rfl, rfl, hn.symm⟩
    unfold create; simp only [hn]
  · intro hk
    have hn : q.name = none := by
      cases h : q.name with
      | none => rfl
      | some n => exact absurd hk (hq.1 (by rw [h]; rfl))
    unfold create; simp only [hn]

/-- **C177.** A vector created from a scalar has its value, unit and name. -/
theorem c177_vector_partial (one : U) (q : Qty U) (hq : q.kind = .scalar) (hv : q.Valid) (unit : Option U)
    (name : Option (List Str)) :
    let v := createVec one (.scalar q) unit name
    v.data = [q.data] ∧ v.unit = q.unit ∧ some v.name = q.name := by
  refine ⟨rfl, rfl, ?_⟩
  obtain ⟨n, hn⟩ := Option.isSome_iff_exists.1 (hv.2 (by rw [hq]; decide))
  simp [createVec, hn]

/-- **C177, violated.** A `physical.Scalar` created from any quantity keeps the number only: the unit becomes `1`, and the
name is lost. -/
theorem c177_counterexample (one : U) (q : Qty U) :
    create one .scalar (.qty q) none none = .ok ⟨.scalar, q.data, one, some noName⟩ := rfl

/-- **C177, violated.** The same is true for a vector created from a vector; the name given with a measurement is lost. -/
theorem c177_vector_counterexample (one : U) (v : Vec U) (xs : List Rat) (u : U) (n : List Str) :
    createVec one (.vector v) none none = ⟨v.data, one, noName⟩ ∧
    createVec one (.measurement xs u) none (some n) = ⟨xs, u, noName⟩ := ⟨rfl, rfl⟩

example : create c!"1" .named (.qty ⟨.scalar, 3, c!"km", some [c!"x"]⟩) none none =
    .ok ⟨.named, 3, c!"km", some [c!"x"]⟩ := rfl

example : create c!"1" .scalar (.qty ⟨.scalar, 3, c!"km", some [c!"x"]⟩) none none =
    .ok ⟨.scalar, 3, c!"1", some [[]]⟩ := rfl

/-! ## C178: converting -/

/-- **C178.** Changing the unit to a consistent one keeps the class and the physical value, for every assignment `mag` of
magnitudes to units that the factors follow. -/
theorem c178_value (one : U) (ueq related : U → U → Bool) (factor : U → U → Res Rat) (mag : U → Rat)
    (hmag : ∀ u v, ueq u v = true → mag u = mag v) (hpos : ∀ u, mag u ≠ 0)
    (hf : ∀ u v f, factor u v = .ok f → f = mag v / mag u) (x r : Qty U) (u : U)
    (h : convert one ueq related factor x u = .ok r) :
    r.kind = x.kind ∧ r.data * mag r.unit = x.data * mag x.unit ∧ mag r.unit = mag u := by
  unfold convert at h
  by_cases hu : ueq u x.unit = true
  · rw [if_pos hu] at h
    injection h with h; subst h
    exact ⟨rfl, rfl, (hmag _ _ hu).symm⟩
  · rw [if_neg hu] at h
    by_cases hr : ¬ related x.unit u = true
    · rw [if_pos hr] at h; cases h
    · rw [if_neg hr] at h
      cases hfu : factor u x.unit with
      | error e => rw [hfu] at h; cases h
      | ok f =>
        rw [hfu] at h
        have hff := hf _ _ _ hfu
        have hp := hpos u
        have hd : ∀ k n, Except.ok (Qty.mk k (x.data * f) u n) = (Except.ok r : Res (Qty U)) →
            r.kind = k ∧ r.data * mag r.unit = x.data * mag x.unit ∧ mag r.unit = mag u := by
          intro k n he
          injection he with he; subst he
          refine ⟨rfl, ?_, rfl⟩
          simp only [hff]
          field_simp
        cases hk : x.kind with
        | measurable => rw [hk] at h; exact hd _ _ h
        | named => rw [hk] at h; exact hd _ _ h
        | scalar => rw [hk] at h; exact hd _ _ h

/-- **C178.** A change to an equal unit gives the object itself, with its name. -/
theorem c178_name_partial (one : U) (ueq related : U → U → Bool) (factor : U → U → Res Rat) (x : Qty U) (u : U)
    (hu : ueq u x.unit = true) : convert one ueq related factor x u = .ok x := by
  unfold convert; rw [if_pos hu]

/-- **C178, violated.** Every other change of unit loses the name of a scalar, and of a vector. -/
theorem c178_counterexample (one : U) (ueq related : U → U → Bool) (factor : U → U → Res Rat) (x : Qty U) (v : Vec U)
    (u : U) (hx : x.kind = .scalar) :
    (ueq u x.unit = false → ∀ r, convert one ueq related factor x u = .ok r → r.name = some noName) ∧
    (ueq u v.unit = false → ∀ r, v.convert one ueq related factor u = .ok r → r.name = noName) := by
  constructor
  · intro hu r h
    unfold convert at h
    rw [if_neg (by simp [hu])] at h
    split at h
    · cases h
    · cases hf : factor u x.unit with
      | error e => rw [hf] at h; cases h
      | ok f =>
        rw [hf, hx] at h
        have h : Except.ok (Qty.mk .scalar (x.data * f) u (some noName)) = (Except.ok r : Res (Qty U)) := h
        injection h with h; rw [← h]
  · intro hu r h
    unfold Vec.convert at h
    rw [if_neg (by simp [hu])] at h
    split at h
    · cases h
    · cases hf : factor u v.unit with
      | error e => rw [hf] at h; cases h
      | ok f =>
        rw [hf] at h
        have h : Except.ok (createVec one (.list (v.data.map (· * f))) (some u) none) = (Except.ok r : Res (Vec U)) := h
        injection h with h; rw [← h]; rfl

/-- A table with two units, metre and centimetre. -/
def cmTable (u v : Str) : Res Rat :=
  if u = c!"cm" ∧ v = c!"m" then .ok 100 else if u = c!"m" ∧ v = c!"cm" then .ok (1 / 100) else .error .keyError

example : convert c!"1" (fun u v => u = v) (fun _ _ => true) cmTable ⟨.scalar, 3, c!"m", some [c!"x"]⟩ c!"cm" =
    .ok ⟨.scalar, 300, c!"cm", some noName⟩ := by decide +kernel

/-! ## C179: indexing -/

/-- The adjusted index finds the same as Python's own rule, except that it wraps twice. -/
theorem getItem_adjust {α : Type} (xs : List α) (i : Int) :
    Py.getItem xs (adjust xs.length i) =
      if i < -(xs.length : Int) then Py.getItem xs (i + xs.length) else Py.getItem xs i := by
  unfold adjust
  by_cases h0 : i < 0
  · rw [if_pos h0]
    by_cases h1 : i < -(xs.length : Int)
    · rw [if_pos h1]
    · rw [if_neg h1]
      unfold Py.getItem
      have h2 : ¬ (i + (xs.length : Int) < 0) := by omega
      simp only [h0, h2, if_true, if_false]
  · have h1 : ¬ (i < -(xs.length : Int)) := by omega
    rw [if_neg h0, if_neg h1]

/-- **C179.** For `-n <= i`, indexing follows Python's rule: the value at `i`, or at `n + i` if `i` is negative, or
`IndexError`.  A vector gives a scalar with its unit, an assumption also with its name, a measurement a value with the unit,
an expression a term. -/
theorem c179_partial (one : U) (v : Vec U) (i : Int) (hi : -(v.data.length : Int) ≤ i) {T : Type} (terms : List T) (j : Int)
    (hj : -(terms.length : Int) ≤ j) :
    (v.get one i = match Py.getItem v.data i with
      | .ok x => .ok ⟨.scalar, x, v.unit, some noName⟩
      | .error e => .error e) ∧
    (v.getAssumption one i = match Py.getItem v.data i with
      | .ok x => .ok ⟨.scalar, x, v.unit, some v.name⟩
      | .error e => .error e) ∧
    (getMeasured v.data v.unit i = match Py.getItem v.data i with
      | .ok x => .ok [(x, v.unit)]
      | .error e => .error e) ∧
    getTerm terms j = Py.getItem terms j := by
  have h : Py.getItem v.data (adjust v.data.length i) = Py.getItem v.data i := by
    rw [getItem_adjust, if_neg (by omega)]
  refine ⟨?_, ?_, ?_, ?_⟩
  · unfold Vec.get
    rw [h]
    cases Py.getItem v.data i <;> rfl
  · unfold Vec.getAssumption Vec.get
    rw [h]
    cases Py.getItem v.data i <;> rfl
  · unfold getMeasured
    rw [h]
    cases Py.getItem v.data i <;> rfl
  · unfold getTerm
    by_cases hl : j > terms.length
    · rw [if_pos hl]
      have hj' : ¬ (j < 0) := by omega
      unfold Py.getItem
      simp only [hj', if_false]
      rw [List.getElem?_eq_none (by omega)]
    · rw [if_neg hl, getItem_adjust, if_neg (by omega)]

/-- **C179, violated.** An index from `-2n` to `-n - 1` is out of range, but gives the value at `2n + i` instead of
`IndexError`, in every vector, assumption, measurement and expression. -/
theorem c179_counterexample (one : U) (v : Vec U) {T : Type} (terms : List T) (k : Nat) (hk : k < v.data.length)
    (ht : k < terms.length) :
    Py.getItem v.data ((k : Int) - 2 * v.data.length) = .error .indexError ∧
    v.get one ((k : Int) - 2 * v.data.length) = .ok ⟨.scalar, v.data[k], v.unit, some noName⟩ ∧
    v.getAssumption one ((k : Int) - 2 * v.data.length) = .ok ⟨.scalar, v.data[k], v.unit, some v.name⟩ ∧
    getMeasured v.data v.unit ((k : Int) - 2 * v.data.length) = .ok [(v.data[k], v.unit)] ∧
    getTerm terms ((k : Int) - 2 * terms.length) = .ok terms[k] := by
  have hgen : ∀ {T : Type} (ts : List T) (h : k < ts.length),
      Py.getItem ts (adjust ts.length ((k : Int) - 2 * ts.length)) = .ok ts[k] := by
    intro T ts h
    rw [getItem_adjust, if_pos (by omega)]
    unfold Py.getItem
    have h1 : (k : Int) - 2 * ts.length + ts.length < 0 := by omega
    have h2 : ¬ ((k : Int) - 2 * ts.length + ts.length + ts.length < 0) := by omega
    have h3 : ((k : Int) - 2 * ts.length + ts.length + ts.length).toNat = k := by omega
    simp only [h1, h2, h3, if_true, if_false]
    rw [List.getElem?_eq_getElem h]
  refine ⟨?_, ?_, ?_, ?_, ?_⟩
  · unfold Py.getItem
    have h1 : (k : Int) - 2 * v.data.length < 0 := by omega
    have h2 : (k : Int) - 2 * v.data.length + v.data.length < 0 := by omega
    simp only [h1, h2, if_true]
  · unfold Vec.get; rw [hgen v.data hk]; rfl
  · unfold Vec.getAssumption Vec.get; rw [hgen v.data hk]; rfl
  · unfold getMeasured; rw [hgen v.data hk]; rfl
  · unfold getTerm
    rw [if_neg (by omega)]
    exact hgen terms ht

example : Vec.get c!"1" ⟨[1, 2, 3], c!"m", noName⟩ (-3) = .ok ⟨.scalar, 1, c!"m", some noName⟩ := rfl

example : Vec.get c!"1" ⟨[1, 2, 3], c!"m", noName⟩ (-4) = .ok ⟨.scalar, 3, c!"m", some noName⟩ := rfl

example : Vec.get c!"1" ⟨[1, 2, 3], c!"m", noName⟩ 3 = .error .indexError := rfl

/-! ## C180: single values -/

/-- **C180.** A vector with one value can be turned into a scalar, and an assumption into a number, with the value and the
unit kept; for more than one value both are refused, and for none an assumption is. -/
theorem c180_single {R : Type} (one : U) (cast : Rat → R) (v : Vec U) :
    (∀ x, v.data = [x] → v.toScalar one = .ok ⟨.scalar, x, v.unit, some noName⟩ ∧ v.castTo cast = .ok (cast x)) ∧
    (2 ≤ v.data.length → v.toScalar one = .error .valueError) ∧
    (v.data.length ≠ 1 → v.castTo cast = .error .typeError) := by
  refine ⟨?_, ?_, ?_⟩
  · intro x hx
    refine ⟨?_, ?_⟩
    · unfold Vec.toScalar Vec.get
      rw [hx]; rfl
    · unfold Vec.castTo; rw [hx]
  · intro h
    unfold Vec.toScalar
    rw [if_neg (by omega)]
  · intro h
    unfold Vec.castTo
    split
    · next x hx => exact absurd (by rw [hx]; rfl) h
    · rfl

example : (⟨[5], c!"m", [c!"x"]⟩ : Vec Str).toScalar c!"1" = .ok ⟨.scalar, 5, c!"m", some noName⟩ ∧
    (⟨[5, 6], c!"m", [c!"x"]⟩ : Vec Str).toScalar c!"1" = .error .valueError := ⟨rfl, rfl⟩

end Verif.Quantities
