import Verif.Fundamental.Model
import Mathlib.Tactic.Linarith
import Mathlib.Tactic.NormNum

set_option linter.unusedSimpArgs false

/-!
# Properties of species and constants: C64, C65
-/

namespace Verif.Fundamental

open Verif.Py Verif.Metric

/-! ## C64 -/

/-- Specification: one sign for each unit of charge. -/
def oneSignPerUnit (q : ℤ) : Str := List.replicate q.toNat '+' ++ List.replicate (-q).toNat '-'

/-- The elements whose mass number was listed before for another one. -/
def shadowed : List Str := [c!"Ca", c!"Co", c!"Po", c!"Cm", c!"Db"]

/-- The rounded mass is an integer nearest to the mass. -/
theorem pyRound_near (x : ℚ) : |(pyRound x : ℚ) - x| ≤ 1/2 := by
  have h1 := Int.floor_le x
  have h2 := Int.lt_floor_add_one x
  rw [abs_le]
  unfold pyRound
  simp only []
  split
  · constructor <;> linarith
  · split
    · push_cast; constructor <;> linarith
    · split
      · constructor <;> linarith
      · push_cast; constructor <;> linarith

theorem signs_int (q : ℤ) : signs (q : ℚ) = oneSignPerUnit q := by
  unfold signs oneSignPerUnit trunc
  have h1 : ((q : ℚ).num).tdiv ((q : ℚ).den : ℤ) = q := by
    simp
  rw [h1]
  rcases lt_trichotomy q 0 with h | h | h
  · rw [if_neg (by push_cast [Int.cast_pos]; simpa using le_of_lt h), Int.toNat_of_nonpos (le_of_lt h)]
    simp only [List.replicate_zero, List.nil_append]
    congr 1
    omega
  · subst h; simp
  · rw [if_pos (by simpa using h), Int.toNat_of_nonpos (by omega : -q ≤ 0)]
    simp only [List.replicate_zero, List.append_nil]
    congr 1
    omega

/-- The table as a check: the index of the rounded mass leads back to the symbol. -/
theorem index_table : ∀ e ∈ elementTable, e.symbol ∉ shadowed →
    ∃ i, getIndex (nucleons.map (·.2)) (pyRound e.mass) = .ok i
      ∧ ((nucleons.map (·.1))[i]?).getD [] = e.symbol := by
  have h : elementTable.all (fun e => decide (e.symbol ∈ shadowed)
      || match getIndex (nucleons.map (·.2)) (pyRound e.mass) with
        | .ok i => decide (((nucleons.map (·.1))[i]?).getD [] = e.symbol)
        | .error _ => false) = true := by decide +kernel
  intro e he hs
  have := List.all_eq_true.1 h e he
  simp only [hs, decide_false, Bool.false_or] at this
  split at this
  · next i hi => exact ⟨i, hi, by simpa using this⟩
  · cases this

theorem no_signs_in_symbols : ∀ e ∈ elementTable, '+' ∉ e.symbol ∧ '-' ∉ e.symbol := by
  decide +kernel

/-- Splitting a symbol into its letters and its signs. -/
theorem rstrip_signs (b sg : Str) (hb : ∀ c ∈ b, c ∉ c!"+-") (hs : ∀ c ∈ sg, c ∈ c!"+-") :
    rstrip c!"+-" (b ++ sg) = b := by
  unfold rstrip
  rw [List.reverse_append, List.dropWhile_append_of_pos (by simpa using hs)]
  have : b.reverse.dropWhile (fun x => decide (x ∈ c!"+-")) = b.reverse := by
    cases hr : b.reverse with
    | nil => rfl
    | cons c cs =>
      rw [List.dropWhile_cons_of_neg]
      simpa using hb c (by rw [← List.mem_reverse, hr]; simp)
  rw [this, List.reverse_reverse]

theorem lstrip_signs (b sg : Str) (hb : ∀ c ∈ b, c ∉ c!"+-") (hs : ∀ c ∈ sg, c ∈ c!"+-") :
    lstrip b (b ++ sg) = sg := by
  unfold lstrip
  rw [List.dropWhile_append_of_pos (by simp)]
  cases sg with
  | nil => rfl
  | cons c cs =>
    rw [List.dropWhile_cons_of_neg]
    have := hs c (by simp)
    simpa using fun h => hb c h this

theorem sumSigns_append (a b : Str) (x y : ℚ) (ha : sumSigns a = .ok x) (hb : sumSigns b = .ok y) :
    sumSigns (a ++ b) = .ok (x + y) := by
  induction a generalizing x with
  | nil => injection ha with ha; subst ha; rw [List.nil_append, hb, zero_add]
  | cons c cs ih =>
    rw [List.cons_append]
    unfold sumSigns at ha ⊢
    cases hc : signValue c with
    | error e => rw [hc] at ha; cases ha
    | ok v =>
      cases hcs : sumSigns cs with
      | error e => rw [hc, hcs] at ha; cases ha
      | ok w =>
        rw [hc, hcs] at ha
        injection ha with ha
        subst ha
        rw [ih w hcs]
        show Except.ok (v + (w + y)) = Except.ok (v + w + y)
        rw [add_assoc]

theorem sumSigns_replicate (n : Nat) (c : Char) (v : ℚ) (h : signValue c = .ok v) :
    sumSigns (List.replicate n c) = .ok (n * v) := by
  induction n with
  | zero => simp [sumSigns]
  | succ n ih =>
    rw [List.replicate_succ]
    unfold sumSigns
    rw [h, ih]
    show Except.ok (v + n * v) = _
    congr 1
    push_cast
    ring

theorem mem_oneSign (q : ℤ) : ∀ c ∈ oneSignPerUnit q, c ∈ c!"+-" := by
  intro c hc
  rcases List.mem_append.1 hc with h | h <;>
    · rw [(List.mem_replicate.1 h).2]; decide

theorem charge_of_signs (b : Str) (q : ℤ) (hb : ∀ c ∈ b, c ∉ c!"+-") :
    chargeOf (b ++ oneSignPerUnit q) = .ok (q : ℚ) := by
  unfold chargeOf
  simp only [rstrip_signs b _ hb (mem_oneSign q), lstrip_signs b _ hb (mem_oneSign q)]
  rw [oneSignPerUnit, sumSigns_append _ _ _ _ (sumSigns_replicate _ '+' 1 rfl)
    (sumSigns_replicate _ '-' (-1) rfl)]
  congr 1
  have : ((q.toNat : ℤ) : ℚ) - (((-q).toNat : ℤ) : ℚ) = q := by
    rw [← Int.cast_sub, Int.toNat_sub_toNat_neg]
  push_cast at this
  linarith

theorem mass_table : ∀ e ∈ elementTable,
    Iterables.tableFind elementRows (.text e.symbol) true
      = .ok [[(c!"symbol", .text e.symbol), (c!"name", .text e.name), (c!"mass", .number e.mass)]] := by
  decide +kernel

theorem elements_cons (m c : ℚ) (ms cs : List ℚ) (s : Str) (ss : List Str)
    (h1 : ∃ i, getIndex (nucleons.map (·.2)) (pyRound m) = .ok i
      ∧ ((nucleons.map (·.1))[i]?).getD [] ++ signs c = s)
    (h2 : elements ms cs = .ok ss) : elements (m :: ms) (c :: cs) = .ok (s :: ss) := by
  obtain ⟨i, hi, hs⟩ := h1
  unfold elements at h2 ⊢
  split at h2
  · cases h2
  · next hl =>
    rw [if_neg (by simpa using hl)]
    unfold getMassIndices at h2 ⊢
    rw [List.mapM_cons, hi]
    cases hr : ms.mapM (fun t => getIndex (nucleons.map (·.2)) (pyRound t)) with
    | error e => rw [hr] at h2; cases h2
    | ok idx =>
      rw [hr] at h2
      injection h2 with h2
      subst h2 hs
      rfl

/-- C64, partial. For every list of elements of the table other than the five that share their mass
number with one listed before, with any masses that round like theirs and any integer charges: the
symbols computed are those of the elements, each followed by one sign per unit of charge.  For every
element of the table and every integer charge: the charge and the mass computed from that symbol are
the charge and the listed mass.

Missing: the symbol for the masses of Ca, Co, Po, Cm and Db, which is that of another element
(`c64_counterexample`). -/
theorem c64_partial :
    (∀ species : List (Element × ℚ × ℤ),
      (∀ s ∈ species, s.1 ∈ elementTable ∧ s.1.symbol ∉ shadowed ∧ pyRound s.2.1 = pyRound s.1.mass) →
      elements (species.map (fun s => s.2.1)) (species.map (fun s => (s.2.2 : ℚ)))
        = .ok (species.map (fun s => s.1.symbol ++ oneSignPerUnit s.2.2)))
    ∧ ∀ e ∈ elementTable, ∀ q : ℤ,
      chargeOf (e.symbol ++ oneSignPerUnit q) = .ok (q : ℚ)
      ∧ massOf (e.symbol ++ oneSignPerUnit q) = .ok e.mass := by
  constructor
  · intro species
    induction species with
    | nil => intro _; rfl
    | cons s ss ih =>
      intro h
      obtain ⟨h1, h2, h3⟩ := h s (List.mem_cons_self ..)
      obtain ⟨i, hi, hs⟩ := index_table s.1 h1 h2
      refine elements_cons _ _ _ _ _ _ ⟨i, by rw [h3]; exact hi, ?_⟩
        (ih (fun t ht => h t (List.mem_cons_of_mem _ ht)))
      rw [hs, signs_int]
  · intro e he q
    have hn := no_signs_in_symbols e he
    have hb : ∀ c ∈ e.symbol, c ∉ c!"+-" := by
      intro c hc h
      rcases List.mem_cons.1 h with h | h
      · exact hn.1 (h ▸ hc)
      · rcases List.mem_cons.1 h with h | h
        · exact hn.2 (h ▸ hc)
        · cases h
    refine ⟨charge_of_signs _ q hb, ?_⟩
    unfold massOf
    rw [rstrip_signs _ _ hb (mem_oneSign q), mass_table e he]
    rfl

/-- C64: the five elements, computed from their own masses. -/
theorem c64_counterexample :
    elements [2004/50, 589332/10000, 209, 247, 262] [2, 0, 1, -1, 0]
      = .ok [c!"Ar++", c!"Ni", c!"Bi+", c!"Bk-", c!"Bh"]
    ∧ (∃ e ∈ elementTable, e.symbol = c!"Ca" ∧ e.mass = 2004/50)
    ∧ (∃ e ∈ elementTable, e.symbol = c!"Co" ∧ e.mass = 589332/10000)
    ∧ (∃ e ∈ elementTable, e.symbol = c!"Po" ∧ e.mass = 209)
    ∧ (∃ e ∈ elementTable, e.symbol = c!"Cm" ∧ e.mass = 247)
    ∧ (∃ e ∈ elementTable, e.symbol = c!"Db" ∧ e.mass = 262) := by
  decide +kernel

example : elements [4, 5585/100] [2, 10] = .ok [c!"He++", c!"Fe++++++++++"]
    ∧ elements [3] [1] = .error (.named "MassValueError")
    ∧ elements [1] [1, 2] = .error .typeError
    ∧ pyRound (5585/100) = pyRound (55847/1000) ∧ pyRound (325/2) = 162
    ∧ chargeOf c!"O------" = .ok (-6) ∧ massOf c!"O--" = .ok (159994/10000) := by
  decide +kernel

/-! ## C65 -/

/-- Specification: the value of a unit in the SI, and its exponents of length, mass, time, temperature
and charge.  A statcoulomb is a tenth of a coulomb divided by the speed of light in m/s, as
Coulomb's law requires: two charges of one statcoulomb at a distance of 1 cm repel with 1 dyn. -/
def si (u : Str) : Option (ℚ × List ℚ) :=
  Dict.get? [
    (c!"1", (1, [0, 0, 0, 0, 0])),
    (c!"m", (1, [1, 0, 0, 0, 0])),
    (c!"cm", (1/100, [1, 0, 0, 0, 0])),
    (c!"kg", (1, [0, 1, 0, 0, 0])),
    (c!"g", (1/1000, [0, 1, 0, 0, 0])),
    (c!"s", (1, [0, 0, 1, 0, 0])),
    (c!"K", (1, [0, 0, 0, 1, 0])),
    (c!"C", (1, [0, 0, 0, 0, 1])),
    (c!"statC", (1/10/299792458, [0, 0, 0, 0, 1])),
    (c!"J", (1, [2, 1, -2, 0, 0])),
    (c!"erg", (1/10^7, [2, 1, -2, 0, 0])),
    (c!"W", (1, [2, 1, -3, 0, 0])),
    (c!"dyn", (1/10^5, [1, 1, -2, 0, 0]))] u

/-- The value and dimension of a product of powers of units. -/
def siOfTerms : List Symbolic.Term → Option (ℚ × List ℚ)
  | [] => some (1, [0, 0, 0, 0, 0])
  | t :: ts =>
    match si t.base, siOfTerms ts with
    | some (v, d), some (w, f) =>
      some (t.coef * v ^ t.exp.num * w, List.zipWith (fun a b => t.exp * a + b) d f)
    | _, _ => none

/-- The value and dimension of a unit given as a string. -/
def siOf (u : Str) : Option (ℚ × List ℚ) :=
  match Symbolic.ofString u with
  | .ok ts => siOfTerms ts
  | .error _ => none

/-- The relative difference is at most one in the last of the listed digits. -/
def Close (a b : ℚ) : Prop := |a - b| ≤ |b| / 10000

instance (a b : ℚ) : Decidable (Close a b) := by unfold Close; infer_instance

/-- The two entries of a constant describe the same quantity according to the SI. -/
def Agrees (c : Constant) : Prop :=
  match siOf c.mksUnit, siOf c.cgsUnit with
  | some (v, d), some (w, e) => d = e ∧ Close (c.mks * v) (c.cgs * w)
  | _, _ => False

instance (c : Constant) : Decidable (Agrees c) := by
  unfold Agrees
  split <;> infer_instance

/-- The two entries of a constant agree by the library's own conversion of units. -/
def LibraryAgrees (c : Constant) : Prop :=
  ∃ f, actualConversion tableOrder c.mksUnit c.cgsUnit = .ok f ∧ Close (c.mks * f) c.cgs

/-- The speed of light in m/s. -/
def metersPerSecond : ℚ := 299792458

/-- C65, partial. For every constant except epsilon0, mu0 and c1, the units listed for the two systems
have the same dimension and the values agree to the listed precision according to the SI.  The values of
epsilon0 and mu0 (whose unit in the CGS system is 1) agree by the relations of the Gaussian system.  By
the library's own conversion the values of all constants except e, G, epsilon0, mu0, c1 and sigma
agree.

Missing: c1, of which the same number is listed for both systems; and the conversion by the library of
the six named ones, which is wrong or fails (`c65_counterexample`). -/
theorem c65_partial :
    (∀ c ∈ constants, c.name ∉ [c!"epsilon0", c!"mu0", c!"c1"] → Agrees c)
    ∧ (∀ c ∈ constants, c.name = c!"epsilon0" →
        Close (c.mks * (4 * numpyPi * metersPerSecond ^ 2 / 10 ^ 7)) c.cgs)
    ∧ (∀ c ∈ constants, c.name = c!"mu0" → c.mks * (10 ^ 7 / (4 * numpyPi)) = c.cgs)
    ∧ ∀ c ∈ constants, c.name ∉ [c!"e", c!"G", c!"epsilon0", c!"mu0", c!"c1", c!"sigma"] →
        LibraryAgrees c := by
  refine ⟨by decide +kernel, by decide +kernel, by decide +kernel, ?_⟩
  have h : constants.all (fun c =>
      decide (c.name ∈ [c!"e", c!"G", c!"epsilon0", c!"mu0", c!"c1", c!"sigma"])
      || match conversion fastBook (fastEnv numpyPi tableOrder) powInt c.mksUnit c.cgsUnit with
        | .ok f => decide (Close (c.mks * f) c.cgs)
        | .error _ => false) = true := by decide +kernel
  intro c hc hn
  have := List.all_eq_true.1 h c hc
  simp only [hn, decide_false, Bool.false_or] at this
  unfold LibraryAgrees
  rw [actualConversion_eq]
  split at this
  · next f hf => exact ⟨f, hf, by simpa using this⟩
  · cases this

/-- C65: the first radiation constant differs by a factor 10^11; the library's conversion makes the
elementary charge a hundred times too large, mu0 almost ten times, and epsilon0 by more than the
listed precision; it cannot convert the unit of G. -/
theorem c65_counterexample :
    (∃ c ∈ constants, c.name = c!"c1" ∧ ¬ Agrees c ∧ c.mks = c.cgs)
    ∧ (∃ f, actualConversion tableOrder c!"C" c!"statC" = .ok f
        ∧ Close ((8011/50000000000000000000000) * f) (100 * (1501/3125000000000)))
    ∧ (∃ c ∈ constants, c.name = c!"e" ∧ c.mks = 8011/50000000000000000000000
        ∧ c.cgs = 1501/3125000000000)
    ∧ (∃ f, actualConversion tableOrder c!"H / m" c!"1" = .ok f
        ∧ 9 < 4 * numpyPi * (1/10000000) * f)
    ∧ (∃ f, actualConversion tableOrder c!"F / m" c!"1" = .ok f
        ∧ ¬ Close ((44271/5000000000000000) * f) 1)
    ∧ (∃ e, actualConversion tableOrder c!"m^3 / (s^2 * kg)" c!"dyn * cm^2 / g^2" = .error e) := by
  simp only [actualConversion_eq]
  refine ⟨by decide +kernel, ?_, by decide +kernel, ?_, ?_, ?_⟩
  · exact ⟨299792458000, by decide +kernel, by decide +kernel⟩
  · exact ⟨10000000 / 4 * numpyPi, by decide +kernel, by decide +kernel⟩
  · exact ⟨36 * numpyPi * 1000000000, by decide +kernel, by decide +kernel⟩
  · exact ⟨.named "UnitConversionError", by decide +kernel⟩

end Verif.Fundamental
