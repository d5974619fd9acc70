import Verif.Runtime.Props
import Verif.Symbolic.Props

/-!
# Runtime parameters: properties C50, C51, C52, C96
-/

set_option linter.unusedSimpArgs false
set_option linter.unusedSectionVars false

namespace Verif.Runtime

open Verif.Py

/-! ## C50: user entries override defaults -/

section
variable {K : Type} [Field K] [DecidableEq K]

/-- The text that defines a parameter, and its type: the user's entry when there is one, the
default otherwise. -/
def Params.Defines (P : Params K) (n s : Str) (t : Typ) : Prop :=
  ∃ d, P.reference.get? n = some (d, t)
    ∧ ((P.user.get? n = some s) ∨ (P.user.get? n = none ∧ s = d))

/-- Reading a text as a value of the given type succeeds. -/
def Params.Reads (P : Params K) (s : Str) : Typ → Val K → Prop
  | .int, v => ∃ x, P.readInt s = some x ∧ v = .num x
  | .float, v => ∃ x, P.readFloat s = some x ∧ v = .num x
  | .str, v => v = .text s
  | .list, v => ∃ xs, P.readList s = some xs ∧ v = .list xs

/-- Reading a text as a value of the given type fails. -/
def Params.Unreadable (P : Params K) (s : Str) : Typ → Prop
  | .int => P.readInt s = none
  | .float => P.readFloat s = none
  | .str => False
  | .list => P.readList s = none

theorem convert_reads {P : Params K} {s : Str} {t : Typ} {v : Val K} (h : P.Reads s t v) :
    P.convert s t = .done v := by
  cases t with
  | int => obtain ⟨x, h, rfl⟩ := h; simp [Params.convert, h]
  | float => obtain ⟨x, h, rfl⟩ := h; simp [Params.convert, h]
  | str => cases h; rfl
  | list => obtain ⟨x, h, rfl⟩ := h; simp [Params.convert, h]

theorem convert_unreadable {P : Params K} {s : Str} {t : Typ} (h : P.Unreadable s t) :
    P.convert s t = .again s := by
  cases t with
  | int => have h : P.readInt s = none := h; simp [Params.convert, h]
  | float => have h : P.readFloat s = none := h; simp [Params.convert, h]
  | str => exact h.elim
  | list => have h : P.readList s = none := h; simp [Params.convert, h]

theorem getArgument_defines {P : Params K} {n s : Str} {t : Typ} (h : P.Defines n s t)
    (hs : P.user.get? n = some s → s ≠ []) : P.getArgument n = some (P.convert s t) := by
  obtain ⟨d, hr, hu⟩ := h
  rw [Params.getArgument, hr]
  rcases hu with hu | ⟨hu, rfl⟩
  · have := hs hu
    rw [hu]
    cases s with
    | nil => exact absurd rfl this
    | cons c s => rfl
  · rw [hu]; rfl

/-- A name: not readable as a nonzero number, and not one of the special names. -/
def Params.PlainName (P : Params K) (n : Str) : Prop :=
  (∀ x, P.cast n = some x → x = 0) ∧ n ≠ c!"N_PROCS" ∧ n ≠ c!"third"

theorem special_none {n : Str} (h1 : n ≠ c!"N_PROCS") (h2 : n ≠ c!"third") :
    special (K := K) n = none := by
  unfold special; rw [if_neg h1, if_neg h2]

theorem truthy_none {o : Option K} (h : ∀ x, o = some x → x = 0) : truthy o = none := by
  unfold truthy
  cases o with
  | none => rfl
  | some x => simp [h x rfl]

theorem evaluateWith_name {P : Params K} {arg : Str → Option (Arg K)} {n : Str}
    (h : P.PlainName n) (fuel : Nat) :
    evaluateWith P arg (fuel + 1) n = (match arg n with
      | some (.done v) => .ok v
      | some (.again d) => evaluateWith P arg fuel d
      | none => resolve P (evaluateWith P arg fuel) n) := by
  rw [evaluateWith, truthy_none h.1, special_none h.2.1 h.2.2]
  rfl

/-- **C50 (part).** For every set of defaults and every configuration without empty entries: a
parameter has the value read from the user's entry when there is one, and from the default
otherwise; if that text is not of the parameter's type, its value is the value of the text. No
other entry matters for which text defines the parameter. -/
theorem c50_partial (P : Params K) (n s : Str) (t : Typ) (h : P.Defines n s t)
    (hs : P.user.get? n = some s → s ≠ []) (hn : P.PlainName n) (fuel : Nat) :
    (∀ v, P.Reads s t v → P.lookup (fuel + 1) n = .ok v)
    ∧ (P.Unreadable s t → P.lookup (fuel + 1) n = evaluate P fuel s)
    ∧ ∀ user', user'.get? n = P.user.get? n → ∀ v, P.Reads s t v →
        ({ P with user := user' } : Params K).lookup (fuel + 1) n = .ok v := by
  have hhas : P.reference.has n = true := by
    obtain ⟨d, hr, _⟩ := h
    rw [Dict.has_eq_isSome, hr]; rfl
  have key : ∀ Q : Params K, Q.PlainName n → Q.reference.has n = true →
      Q.getArgument n = some (Q.convert s t) →
      (∀ v, Q.Reads s t v → Q.lookup (fuel + 1) n = .ok v)
      ∧ (Q.Unreadable s t → Q.lookup (fuel + 1) n = evaluate Q fuel s) := by
    intro Q hq hh hg
    constructor
    · intro v hv
      rw [Params.lookup, if_pos hh, evaluate, evaluateWith_name hq, hg, convert_reads hv]
    · intro hv
      rw [Params.lookup, if_pos hh, evaluate, evaluateWith_name hq, hg, convert_unreadable hv]
      rfl
  obtain ⟨k1, k2⟩ := key P hn hhas (getArgument_defines h hs)
  refine ⟨k1, k2, ?_⟩
  intro user' hu v hv
  have hd : ({ P with user := user' } : Params K).Defines n s t := by
    obtain ⟨d, hr, hx⟩ := h
    exact ⟨d, hr, by simpa only [hu] using hx⟩
  refine (key { P with user := user' } hn hhas (getArgument_defines hd ?_)).1 v ?_
  · simpa only [hu] using hs
  · cases t <;> exact hv

end

/-- Parameters over the rationals with plain decimal readers. -/
def rationalParams (ref : Dict Str (Str × Typ)) (user : Dict Str Str) (base : Dict Str Rat) :
    Params Rat :=
  ⟨ref, user, base, decimalInt, decimalFloat, decimalList, ratPow⟩

/-- Two parameters, one of them set by the user. -/
def twoParams : Params Rat :=
  rationalParams [(c!"eMin", (c!"10.0", .float)), (c!"eMax", (c!"1000.0", .float))]
    [(c!"eMin", c!"2.5e1")] []

example : let P := twoParams
    P.lookup 1 c!"eMin" = .ok (.num 25) ∧ P.lookup 1 c!"eMax" = .ok (.num 1000)
    ∧ P.Defines c!"eMin" c!"2.5e1" .float := by
  refine ⟨by decide +kernel, by decide +kernel, c!"10.0", by decide +kernel, Or.inl (by decide +kernel)⟩

/-- **C50 fails in the code** for an empty entry: the line `warningsFile=` sets the parameter to
the empty text, but the default is used. -/
theorem c50_counterexample :
    let P := rationalParams [(c!"warningsFile", (c!"warningsXXX.txt", .str))] [(c!"warningsFile", [])] []
    parseConfig ['#'] c!"warningsFile=" = .ok P.user
    ∧ P.Defines c!"warningsFile" [] .str
    ∧ P.lookup 10 c!"warningsFile" = .ok (.text c!"warningsXXX.txt") := by
  refine ⟨by decide +kernel, ⟨c!"warningsXXX.txt", by decide +kernel, Or.inl (by decide +kernel)⟩,
    by decide +kernel⟩

/-! ## C51: references between parameters -/

section
variable (P : Params ℝ) (ν : Str → ℝ) (R : Str → Prop)

/-- A text that is neither a numeral nor the name of a parameter or constant. -/
def Params.Free (s : Str) : Prop :=
  P.cast s = none ∧ P.reference.get? s = none ∧ P.basetypes.get? s = none

/-- The names in an expression. -/
def treeNames : Symbolic.Tree → List Str
  | .num _ => []
  | .var n _ => [n]
  | .group t _ => treeNames t
  | .bin _ a b => treeNames a ++ treeNames b

/-- What a definition means under ordinary arithmetic, given the values `ν` of the names it may
refer to (those satisfying `R`): nonzero numerals, `third`, names, `config.name`, sums and
differences of two definitions with nonzero value (no second `+`; no `-` inside the terms of a
difference), and written products and quotients of positive quantities. -/
inductive Means : Str → ℝ → Prop
  | number (s : Str) (x : ℝ) : P.cast s = some x → x ≠ 0 → Means s x
  | third : P.cast c!"third" = none → Means c!"third" (1 / 3)
  | name (n : Str) : R n → Means n (ν n)
  | member (n : Str) : R n → (∀ c ∈ n, isWord c = true) → P.Free (c!"config." ++ n) →
      Means (c!"config." ++ n) (ν n)
  | plus (a b w w' : Str) (x y : ℝ) : Means a x → Means b y → '+' ∉ a → '+' ∉ b →
      Trimmed a → Trimmed b → (∀ c ∈ w ++ w', isSpace c = true) →
      P.Free (a ++ w ++ '+' :: (w' ++ b)) → x + y ≠ 0 →
      Means (a ++ w ++ '+' :: (w' ++ b)) (x + y)
  | minus (a b w w' : Str) (x y : ℝ) : Means a x → Means b y → '+' ∉ a ++ b → '-' ∉ a ++ b →
      Trimmed a → Trimmed b → (∀ c ∈ w ++ w', isSpace c = true) →
      P.Free (a ++ w ++ '-' :: (w' ++ b)) → x - y ≠ 0 →
      Means (a ++ w ++ '-' :: (w' ++ b)) (x - y)
  | product (t : Symbolic.Tree) (v : Symbolic.Assignment) : t.Ok → t.Exact 1 → t.Positive →
      (∀ n ∈ treeNames t, R n ∧ v.val n = ν n) → ('*' ∈ t.render ∨ '/' ∈ t.render) →
      '+' ∉ t.render → '-' ∉ t.render → P.Free t.render → Means t.render (t.denote v)

end

/-- `ν` gives the values of the names in `S`, whose definitions do not refer in circles: each name
is a constant of `baseTypes.h`, a parameter whose text is a number (zero included), or a parameter
whose text means `ν n` in terms of names of lower rank. -/
structure Acyclic (P : Params ℝ) (ν : Str → ℝ) (rank : Str → Nat) (S : Str → Prop) : Prop where
  plain : ∀ n, S n → P.PlainName n
  defined : ∀ n, S n →
    (P.reference.get? n = none ∧ P.basetypes.get? n = some (ν n))
    ∨ ∃ s t, P.Defines n s t ∧ s ≠ [] ∧ (P.Reads s t (.num (ν n))
      ∨ (P.Unreadable s t ∧ Means P ν (fun m => S m ∧ rank m < rank n) s (ν n)))

/-- Evaluation settles on a value once the recursion may go deep enough. -/
def Evals (P : Params ℝ) (s : Str) (x : ℝ) : Prop :=
  ∃ N, ∀ fuel, N ≤ fuel → evaluate P fuel s = .ok (.num x)

theorem structMember_none {s : Str} {c : Char} (hc : c ∈ s) (hw : isWord c = false)
    (hcc : c ∉ c!"config.") : structMember s = none := by
  unfold structMember
  rw [if_neg]
  rintro ⟨h1, h2⟩
  rw [← List.take_append_drop 7 s, List.mem_append, h1] at hc
  rcases hc with h | h
  · exact hcc h
  · rw [List.all_eq_true] at h2
    rw [h2 c h] at hw
    cases hw

theorem structMember_config {n : Str} (h : ∀ c ∈ n, isWord c = true) :
    structMember (c!"config." ++ n) = some n := by
  unfold structMember
  rw [if_pos]
  · rfl
  · refine ⟨rfl, ?_⟩
    rw [List.all_eq_true]
    exact h

theorem special_none_of_nonword {s : Str} {c : Char} (hc : c ∈ s) (hw : isWord c = false) :
    special (K := ℝ) s = none := by
  apply special_none
  · rintro rfl
    simp only [List.mem_cons, List.not_mem_nil, or_false] at hc
    rcases hc with rfl | rfl | rfl | rfl | rfl | rfl | rfl <;> exact absurd hw (by decide)
  · rintro rfl
    simp only [List.mem_cons, List.not_mem_nil, or_false] at hc
    rcases hc with rfl | rfl | rfl | rfl | rfl <;> exact absurd hw (by decide)

noncomputable instance : DecidableEq ℝ := Classical.decEq ℝ

theorem evaluate_free {P : Params ℝ} {s : Str} (h : P.Free s) {c : Char} (hc : c ∈ s)
    (hw : isWord c = false) (fuel : Nat) :
    evaluate P (fuel + 1) s = resolve P (evaluate P fuel) s := by
  have hg : P.getArgument s = none := by
    rw [Params.getArgument, h.2.1, h.2.2]
  rw [evaluate, evaluateWith, h.1, special_none_of_nonword hc hw, hg]
  rfl

/-! ### Sums -/

theorem strip_spaced {a w w' : Str} (ht : Trimmed a) (hw : ∀ c ∈ w, isSpace c = true)
    (hw' : ∀ c ∈ w', isSpace c = true) : strip (w ++ a ++ w') = a := strip_of w a w' hw hw' ht

theorem space_ne {c : Char} (h : isSpace c = true) : c ≠ '+' ∧ c ≠ '-' := by
  constructor <;> rintro rfl <;> exact absurd h (by decide)

theorem sumTerms_two {ev : Str → Res (Val ℝ)} {op : Char} {sign : ℝ}
    {a b w w' : Str} {x y : ℝ} (hop : isSpace op = false) (ha : op ∉ a) (hb : op ∉ b)
    (ta : Trimmed a) (tb : Trimmed b) (hw : ∀ c ∈ w ++ w', isSpace c = true)
    (ea : ev a = .ok (.num x)) (eb : ev b = .ok (.num y)) :
    sumTerms ev sign (splitChar op (a ++ w ++ op :: (w' ++ b))) = .ok (.num (x + sign * y)) := by
  have hsp : ∀ u : Str, (∀ c ∈ u, isSpace c = true) → op ∉ u := by
    intro u hu h
    rw [hu op h] at hop; cases hop
  have h1 : op ∉ a ++ w := by
    simp only [List.mem_append, not_or]
    exact ⟨ha, hsp w (fun c h => hw c (by simp [h]))⟩
  have h2 : op ∉ w' ++ b := by
    simp only [List.mem_append, not_or]
    exact ⟨hsp w' (fun c h => hw c (by simp [h])), hb⟩
  have s1 := strip_spaced (w := []) (w' := w) ta (by simp) (fun c h => hw c (by simp [h]))
  have s2 := strip_spaced (w := w') (w' := []) tb (fun c h => hw c (by simp [h])) (by simp)
  simp only [List.nil_append, List.append_nil] at s1 s2
  rw [splitChar_append h1, splitChar_none h2, sumTerms]
  simp only [List.map_cons, List.map_nil, s1, s2, evalAll, ea, eb]
  rfl

/-! ### Products -/

theorem names_termsOf : ∀ (t : Symbolic.Tree) (q : Rat),
    ∀ u ∈ Symbolic.termsOf t q, u.base = Symbolic.one ∨ u.base ∈ treeNames t := by
  intro t
  induction t with
  | num c => intro q u hu; simp [Symbolic.termsOf] at hu; subst hu; simp
  | var n x => intro q u hu; simp [Symbolic.termsOf] at hu; subst hu; simp [treeNames]
  | group t x ih =>
    intro q u hu
    simp only [Symbolic.termsOf, List.mem_append, List.mem_singleton] at hu
    rcases hu with hu | rfl
    · exact ih _ u hu
    · exact Or.inl rfl
  | bin o a b iha ihb =>
    intro q u hu
    simp only [Symbolic.termsOf, List.mem_append] at hu
    rcases hu with hu | hu
    · rcases iha _ u hu with h | h
      · exact Or.inl h
      · exact Or.inr (by simp [treeNames, h])
    · rcases ihb _ u hu with h | h
      · exact Or.inl h
      · exact Or.inr (by simp [treeNames, h])

theorem ofString_render {t : Symbolic.Tree} (hok : t.Ok) (he : t.Exact 1) (hp : t.Positive) :
    ∃ r, Symbolic.ofString t.render = .ok r ∧ r ≠ [] ∧ (∀ v, Symbolic.value v r = t.denote v)
      ∧ ∀ u ∈ r, u.base = Symbolic.one ∨ u.base ∈ treeNames t := by
  obtain ⟨ts, r, h1, h2, h3, h4⟩ := Symbolic.c71_parse_meaning_partial t hok he hp
  refine ⟨r, h2, (Symbolic.isExpr_wf h3).1, fun v => (h4 v).2, ?_⟩
  rw [Symbolic.parse_render t hok he] at h1
  injection h1 with h1
  have hred : Symbolic.reduce ts = .ok r := by
    unfold Symbolic.ofString at h2
    rw [if_neg (Symbolic.Tree.render_ne_nil hok), Symbolic.parse_render t hok he] at h2
    rw [← h1]; exact h2
  have hw : ∀ u ∈ ts, Symbolic.WF u := by
    rw [← h1]
    intro u hu
    rcases List.mem_append.1 hu with h | h
    · exact Symbolic.wf_termsOf t 1 hok one_ne_zero u h
    · simp at h; subst h; exact ⟨by simp, by simp, by simp [Symbolic.one]⟩
  have hne : ts ≠ [] := by rw [← h1]; simp
  intro u hu
  by_cases hb : u.base = Symbolic.one
  · exact Or.inl hb
  obtain ⟨vars, hr, hc, he'⟩ := Symbolic.reduce_eq ts hne hw
  rw [hr] at hred
  injection hred with hred
  have huv : u ∈ vars := by
    rw [← hred] at hu
    unfold Symbolic.assemble at hu
    split at hu
    · simp at hu; subst hu; exact absurd rfl hb
    · split at hu
      · exact hu
      · rcases List.mem_cons.1 hu with rfl | h
        · exact absurd rfl hb
        · exact h
  have hx : Symbolic.totalExp ts u.base ≠ 0 := by
    rw [← he' _ hb, Symbolic.totalExp_of_mem hc.2.1 huv]
    exact (hc.1 u huv).2.2.2
  obtain ⟨w, hw1, hw2⟩ := Symbolic.totalExp_ne_zero_mem hx
  rw [← h1] at hw1
  rcases List.mem_append.1 hw1 with h | h
  · rw [← hw2]; exact names_termsOf t 1 w h
  · simp at h; subst h; exact absurd hw2.symm hb

theorem productVal_ok {P : Params ℝ} {ev : Str → Res (Val ℝ)} (v : Symbolic.Assignment)
    (hpow : ∀ (x : ℝ) (q : Rat), 0 < x → P.pow x q = .ok (x ^ (q : ℝ))) :
    ∀ r : List Symbolic.Term, r ≠ [] → (∀ u ∈ r, ev u.base = .ok (.num (v.val u.base))) →
      productVal P ev r = .ok (Symbolic.value v r) := by
  intro r
  induction r with
  | nil => intro h; exact absurd rfl h
  | cons u us ih =>
    intro _ h
    have hu : termVal P ev u = .ok (Symbolic.termValue v u) := by
      rw [termVal, h u (by simp)]
      simp only [hpow _ _ (v.pos _)]
      rfl
    cases us with
    | nil => rw [productVal, hu, Symbolic.value_cons, Symbolic.value_nil, mul_one]
    | cons w ws =>
      rw [productVal, hu, ih (by simp) (fun x hx => h x (by simp [hx])), Symbolic.value_cons]
      · rfl
      · simp

/-! ### Evaluation settles -/

theorem eventually_all {α : Type _} {Q : α → Nat → Prop} : ∀ l : List α,
    (∀ x ∈ l, ∃ N, ∀ f, N ≤ f → Q x f) → ∃ N, ∀ f, N ≤ f → ∀ x ∈ l, Q x f := by
  intro l
  induction l with
  | nil => intro _; exact ⟨0, by simp⟩
  | cons a l ih =>
    intro h
    obtain ⟨N, hN⟩ := h a (by simp)
    obtain ⟨M, hM⟩ := ih (fun x hx => h x (by simp [hx]))
    refine ⟨max N M, fun f hf x hx => ?_⟩
    rcases List.mem_cons.1 hx with rfl | hx
    · exact hN f (by omega)
    · exact hM f (by omega) x hx

theorem evals_means {P : Params ℝ} {ν : Str → ℝ} {R : Str → Prop} (h1 : P.cast c!"1" = some 1)
    (hpow : ∀ (x : ℝ) (q : Rat), 0 < x → P.pow x q = .ok (x ^ (q : ℝ)))
    (hR : ∀ m, R m → Evals P m (ν m)) {s : Str} {x : ℝ} (h : Means P ν R s x) : Evals P s x := by
  have hnum : ∀ s x, P.cast s = some x → x ≠ 0 → Evals P s x := by
    intro s x hs hx
    refine ⟨1, fun fuel hf => ?_⟩
    obtain ⟨f, rfl⟩ : ∃ f, fuel = f + 1 := ⟨fuel - 1, by omega⟩
    rw [evaluate, evaluateWith, hs]
    simp [truthy, hx]
  induction h with
  | number s x hs hx => exact hnum s x hs hx
  | third hc =>
    refine ⟨1, fun fuel hf => ?_⟩
    obtain ⟨f, rfl⟩ : ∃ f, fuel = f + 1 := ⟨fuel - 1, by omega⟩
    rw [evaluate, evaluateWith, hc]
    rfl
  | name n hn => exact hR n hn
  | member n hn hw hfree =>
    obtain ⟨N, hN⟩ := hR n hn
    refine ⟨N + 1, fun fuel hf => ?_⟩
    obtain ⟨f, rfl⟩ : ∃ f, fuel = f + 1 := ⟨fuel - 1, by omega⟩
    rw [evaluate_free hfree (c := '.') (by simp) (by decide), resolve, structMember_config hw]
    exact hN f (by omega)
  | plus a b w w' x y ha hb pa pb ta tb hw hfree hne iha ihb =>
    obtain ⟨N, hN⟩ := iha
    obtain ⟨M, hM⟩ := ihb
    refine ⟨max N M + 1, fun fuel hf => ?_⟩
    obtain ⟨f, rfl⟩ : ∃ f, fuel = f + 1 := ⟨fuel - 1, by omega⟩
    have hmem : '+' ∈ a ++ w ++ '+' :: (w' ++ b) := by simp
    have hsum := sumTerms_two (sign := (1 : ℝ)) (by decide) pa pb ta tb hw (hN f (by omega)) (hM f (by omega))
    rw [evaluate_free hfree hmem (by decide), resolve,
      structMember_none hmem (by decide) (by decide), computeSum, if_pos hmem, hsum, one_mul]
    simp [Except.map, Val.truth, hne]
  | minus a b w w' x y ha hb pp pm ta tb hw hfree hne iha ihb =>
    obtain ⟨N, hN⟩ := iha
    obtain ⟨M, hM⟩ := ihb
    refine ⟨max N M + 1, fun fuel hf => ?_⟩
    obtain ⟨f, rfl⟩ : ∃ f, fuel = f + 1 := ⟨fuel - 1, by omega⟩
    simp only [List.mem_append, not_or] at pp pm
    have hmem : '-' ∈ a ++ w ++ '-' :: (w' ++ b) := by simp
    have hplus : '+' ∉ a ++ w ++ '-' :: (w' ++ b) := by
      have hs : ∀ u : Str, (∀ c ∈ u, isSpace c = true) → '+' ∉ u :=
        fun u hu h => (space_ne (hu _ h)).1 rfl
      have h1 := hs w (fun c h => hw c (by simp [h]))
      have h2 := hs w' (fun c h => hw c (by simp [h]))
      simp only [List.mem_append, List.mem_cons, not_or]
      exact ⟨⟨pp.1, h1⟩, by decide, h2, pp.2⟩
    have hsum := sumTerms_two (sign := (-1 : ℝ)) (by decide) pm.1 pm.2 ta tb hw (hN f (by omega)) (hM f (by omega))
    rw [evaluate_free hfree hmem (by decide), resolve,
      structMember_none hmem (by decide) (by decide), computeSum, if_neg hplus, if_pos hmem, hsum]
    have he : x + -1 * y = x - y := by ring
    rw [he]
    simp [Except.map, Val.truth, hne]
  | product t v hok hex hpos hnames hop hplus hminus hfree =>
    obtain ⟨r, hr, hne, hval, hbase⟩ := ofString_render hok hex hpos
    obtain ⟨N, hN⟩ := eventually_all (Q := fun (u : Symbolic.Term) f =>
        evaluate P f u.base = .ok (.num (v.val u.base))) r (by
      intro u hu
      rcases hbase u hu with hb | hb
      · rw [hb, v.one']
        exact hnum _ 1 h1 one_ne_zero
      · obtain ⟨h1, h2⟩ := hnames _ hb
        rw [h2]
        exact hR _ h1)
    refine ⟨N + 1, fun fuel hf => ?_⟩
    obtain ⟨f, rfl⟩ : ∃ f, fuel = f + 1 := ⟨fuel - 1, by omega⟩
    obtain ⟨c, hc, hw, hcc⟩ : ∃ c ∈ t.render, isWord c = false ∧ c ∉ c!"config." := by
      rcases hop with h | h
      · exact ⟨'*', h, by decide, by decide⟩
      · exact ⟨'/', h, by decide, by decide⟩
    rw [evaluate_free hfree hc hw, resolve, structMember_none hc hw hcc, computeSum, if_neg hplus,
      if_neg hminus]
    simp only
    rw [resolveProduct, if_pos hop, hr]
    simp only
    rw [productVal_ok v hpow r hne (hN f (by omega)), hval]
    rfl

/-- **C51 (part).** For every acyclic set of definitions of the supported forms (see `Means`), with
any depth of references: evaluating a parameter terminates and yields the value of its definition
under ordinary arithmetic.  Parameters defined by a number may be zero; sums must not be zero. -/
theorem c51_partial (P : Params ℝ) (ν : Str → ℝ) (rank : Str → Nat) (S : Str → Prop)
    (h : Acyclic P ν rank S) (h1 : P.cast c!"1" = some 1)
    (hpow : ∀ (x : ℝ) (q : Rat), 0 < x → P.pow x q = .ok (x ^ (q : ℝ)))
    (n : Str) (hn : S n) (hr : P.reference.has n = true) :
    ∃ N, ∀ fuel, N ≤ fuel → P.lookup fuel n = .ok (.num (ν n)) := by
  have main : ∀ k n, rank n < k → S n → Evals P n (ν n) := by
    intro k
    induction k with
    | zero => intro n hk; omega
    | succ k ih =>
      intro n hk hn
      have hp := h.plain n hn
      rcases h.defined n hn with ⟨d1, d2⟩ | ⟨s, t, d1, d2, d3⟩
      · refine ⟨1, fun fuel hf => ?_⟩
        obtain ⟨f, rfl⟩ : ∃ f, fuel = f + 1 := ⟨fuel - 1, by omega⟩
        have hg : P.getArgument n = some (.done (.num (ν n))) := by
          rw [Params.getArgument, d1, d2]
        rw [evaluate, evaluateWith_name hp, hg]
      · have hg := getArgument_defines d1 (fun _ => d2)
        rcases d3 with d3 | ⟨d3, d4⟩
        · refine ⟨1, fun fuel hf => ?_⟩
          obtain ⟨f, rfl⟩ : ∃ f, fuel = f + 1 := ⟨fuel - 1, by omega⟩
          rw [evaluate, evaluateWith_name hp, hg, convert_reads d3]
        · obtain ⟨N, hN⟩ := evals_means h1 hpow (fun m hm => ih m (by omega) hm.1) d4
          refine ⟨N + 1, fun fuel hf => ?_⟩
          obtain ⟨f, rfl⟩ : ∃ f, fuel = f + 1 := ⟨fuel - 1, by omega⟩
          rw [evaluate, evaluateWith_name hp, hg, convert_unreadable d3]
          exact hN f (by omega)
  obtain ⟨N, hN⟩ := main (rank n + 1) n (by omega) hn
  refine ⟨N, fun fuel hf => ?_⟩
  rw [Params.lookup, if_pos hr]
  exact hN fuel hf

/-- Some of the packaged definitions, and a few of our own. -/
def sampleParams (user : Dict Str Str) : Params Rat :=
  rationalParams
    [(c!"simStartTime", (c!"0.0", .float)), (c!"tDel", (c!"0.01041666666667", .float)),
     (c!"epCalcStartTime", (c!"config.simStartTime", .float)),
     (c!"simStopTime", (c!"config.simStartTime + config.tDel", .float)),
     (c!"rigidityPower", (c!"third", .float)),
     (c!"omegaSun", (c!"(4/MAS)*TAU", .float)), (c!"total", (c!"1", .float)), (c!"count", (c!"1", .int))]
    user [(c!"MAS", 8), (c!"TAU", 6)]

example : let P := sampleParams [(c!"simStartTime", c!"2.5"), (c!"tDel", c!"0.5")]
    P.lookup 5 c!"simStopTime" = .ok (.num 3) ∧ P.lookup 5 c!"epCalcStartTime" = .ok (.num (5/2))
    ∧ P.lookup 5 c!"omegaSun" = .ok (.num 3) ∧ P.lookup 5 c!"rigidityPower" = .ok (.num (1/3)) := by
  decide +kernel

/-- The readers of plain decimals, over the reals. -/
noncomputable def realParams (ref : Dict Str (Str × Typ)) (user : Dict Str Str) (base : Dict Str ℝ) :
    Params ℝ :=
  ⟨ref, user, base, fun s => (decimalInt s).map (fun q => (q : ℝ)),
    fun s => (decimalFloat s).map (fun q => (q : ℝ)), fun _ => none, fun x q => .ok (x ^ (q : ℝ))⟩

/-- A configuration with references of depth three, including a parameter that is zero. -/
noncomputable def depthParams : Params ℝ :=
  realParams
    [(c!"zero", (c!"0.0", .float)), (c!"a", (c!"2.5", .float)),
     (c!"b", (c!"config.zero + config.a", .float)), (c!"c", (c!"b * TAU", .float))]
    [(c!"zero", c!"0")] [(c!"TAU", 6)]

/-- The hypotheses of `c51_partial` hold for a configuration with references of depth three,
including a parameter that is zero. -/
example : let P := depthParams
    let ν : Str → ℝ := fun n => if n = c!"zero" then 0 else if n = c!"a" then 5/2 else
      if n = c!"b" then 5/2 else if n = c!"TAU" then 6 else 15
    let rank : Str → Nat := fun n => if n = c!"c" then 2 else if n = c!"b" then 1 else 0
    Acyclic P ν rank (fun n => n ∈ [c!"zero", c!"a", c!"b", c!"c", c!"TAU"]) := by
  intro P ν rank
  have dnone : ∀ s : Str, decimalInt s = none → decimalFloat s = none → P.cast s = none := by
    intro s h1 h2
    simp [Params.cast, P, depthParams, realParams, h1, h2]
  have hplain : ∀ s : Str, decimalInt s = none → decimalFloat s = none → s ≠ c!"N_PROCS" →
      s ≠ c!"third" → P.PlainName s := by
    intro s h1 h2 h3 h4
    exact ⟨by rw [dnone s h1 h2]; simp, h3, h4⟩
  constructor
  · intro n hn
    simp only [List.mem_cons, List.not_mem_nil, or_false] at hn
    rcases hn with rfl | rfl | rfl | rfl | rfl <;>
      exact hplain _ (by decide +kernel) (by decide +kernel) (by decide) (by decide)
  · intro n hn
    simp only [List.mem_cons, List.not_mem_nil, or_false] at hn
    rcases hn with rfl | rfl | rfl | rfl | rfl
    · right
      refine ⟨c!"0", .float, ⟨c!"0.0", rfl, Or.inl rfl⟩, by simp, Or.inl ⟨0, ?_, by simp [ν]⟩⟩
      have : decimalFloat c!"0" = some 0 := by decide +kernel
      simp [P, depthParams, realParams, this]
    · right
      refine ⟨c!"2.5", .float, ⟨c!"2.5", rfl, Or.inr ⟨rfl, rfl⟩⟩, by simp, Or.inl ⟨5/2, ?_, by simp [ν]⟩⟩
      have : decimalFloat c!"2.5" = some (5/2) := by decide +kernel
      simp [P, depthParams, realParams, this]
    · right
      refine ⟨c!"config.zero + config.a", .float, ⟨c!"config.zero + config.a", rfl, Or.inr ⟨rfl, rfl⟩⟩,
        by simp, Or.inr ⟨?_, ?_⟩⟩
      · have : decimalFloat c!"config.zero + config.a" = none := by decide +kernel
        simp [Params.Unreadable, P, depthParams, realParams, this]
      · have hz := Means.member (P := P) (ν := ν)
          (R := fun m => m ∈ [c!"zero", c!"a", c!"b", c!"c", c!"TAU"] ∧ rank m < rank c!"b")
          c!"zero" ⟨by simp, by decide⟩ (by decide)
          ⟨dnone _ (by decide +kernel) (by decide +kernel), rfl, rfl⟩
        have ha := Means.member (P := P) (ν := ν)
          (R := fun m => m ∈ [c!"zero", c!"a", c!"b", c!"c", c!"TAU"] ∧ rank m < rank c!"b")
          c!"a" ⟨by simp, by decide⟩ (by decide)
          ⟨dnone _ (by decide +kernel) (by decide +kernel), rfl, rfl⟩
        have := Means.plus _ _ [' '] [' '] _ _ hz ha (by decide) (by decide)
          (by unfold Trimmed; decide +kernel) (by unfold Trimmed; decide +kernel) (by decide)
          ⟨dnone _ (by decide +kernel) (by decide +kernel), rfl, rfl⟩ (by simp [ν])
        simpa [ν] using this
    · right
      refine ⟨c!"b * TAU", .float, ⟨c!"b * TAU", rfl, Or.inr ⟨rfl, rfl⟩⟩,
        by simp, Or.inr ⟨?_, ?_⟩⟩
      · have : decimalFloat c!"b * TAU" = none := by decide +kernel
        simp [Params.Unreadable, P, depthParams, realParams, this]
      · let v : Symbolic.Assignment := ⟨fun n => if n = c!"b" then 5/2 else if n = c!"TAU" then 6 else 1,
          by intro n; split
             · norm_num
             · split <;> norm_num, by simp [Symbolic.one]⟩
        let t : Symbolic.Tree := .bin .star (.var c!"b" 1) (.var c!"TAU" 1)
        have hw : Symbolic.Writable 1 := by unfold Symbolic.Writable; decide
        have hok : t.Ok := by
          refine ⟨⟨⟨c!"b", [], rfl, by simp, by decide, by simp, by decide⟩, hw⟩,
            ⟨⟨c!"TAU", [], rfl, by simp, by decide, by simp, by decide⟩, hw⟩, trivial⟩
        have hr : t.render = c!"b * TAU" := by decide +kernel
        have := Means.product (P := P) (ν := ν)
          (R := fun m => m ∈ [c!"zero", c!"a", c!"b", c!"c", c!"TAU"] ∧ rank m < rank c!"c")
          t v hok ⟨trivial, trivial⟩ ⟨trivial, trivial⟩
          (by
            intro n hn
            simp only [t, treeNames, List.mem_append, List.mem_singleton, List.mem_cons,
              List.not_mem_nil, or_false] at hn
            rcases hn with rfl | rfl
            · exact ⟨⟨by simp, by decide⟩, by simp [v, ν]⟩
            · exact ⟨⟨by simp, by decide⟩, by simp [v, ν]⟩)
          (by rw [hr]; decide) (by rw [hr]; decide) (by rw [hr]; decide)
          (by rw [hr]; exact ⟨dnone _ (by decide +kernel) (by decide +kernel), rfl, rfl⟩)
        rw [hr] at this
        have hd : t.denote v = ν c!"c" := by
          simp [t, Symbolic.Tree.denote, v, ν]; norm_num
        rw [hd] at this
        exact this
    · left
      exact ⟨rfl, by simp [P, depthParams, realParams, Dict.get?, ν]⟩

/-- **C51 fails in the code.** (1) A sum that is zero is taken for no sum: with both terms zero,
the packaged definition of `simStopTime` raises `TypeError`.  (2) The same
holds for an integer parameter written `0.0`.  (3) Only two terms of a sum count: `1+2+4` is 3 and
`7-2-4` is 5.  (4) A minus sign in front, or in an exponent within a product, is taken for a
difference of two definitions and raises `TypeError`. -/
theorem c51_counterexample :
    (sampleParams [(c!"tDel", c!"0.0")]).lookup 50 c!"simStopTime" = .error .typeError
    ∧ (sampleParams [(c!"count", c!"0.0")]).lookup 50 c!"count" = .error .typeError
    ∧ (sampleParams [(c!"total", c!"1+2+4")]).lookup 50 c!"total" = .ok (.num 3)
    ∧ (sampleParams [(c!"total", c!"7-2-4")]).lookup 50 c!"total" = .ok (.num 5)
    ∧ (sampleParams [(c!"total", c!"-1*TAU")]).lookup 50 c!"total" = .error .typeError
    ∧ (sampleParams [(c!"total", c!"1.0e-5*TAU")]).lookup 50 c!"total" = .error .typeError := by
  decide +kernel

/-! ## C52: changing paths -/

section
variable {K : Type} [Field K] [DecidableEq K]

/-- What a read should give for the current paths, from what is on disk. -/
def World.value (W : World K) (R : Params K) (fuel : Nat) (source conf : Option Str) (n : Str) :
    Res (Val K) :=
  match W.reference source with
  | .error e => .error e
  | .ok r =>
    if r.has n then
      match W.user conf with
      | .error e => .error e
      | .ok u =>
        match W.basetypes source with
        | .error e => .error e
        | .ok b => ({ R with reference := r, user := u, basetypes := b } : Params K).lookup fuel n
    else .error .keyError

theorem get?_buildCurrent (P : Params K) (n : Str) :
    (buildCurrent P).get? n = (P.reference.get? n).map
      (fun e => P.convert (orDefault (P.user.get? n) e.1) e.2) := by
  unfold buildCurrent
  induction P.reference with
  | nil => rfl
  | cons e es ih =>
    obtain ⟨k, d, t⟩ := e
    by_cases h : k = n
    · subst h; simp [Dict.get?]
    · simp only [List.map_cons, Dict.get?, h, if_false]
      exact ih

theorem argumentOf_eq (P : Params K) (n : Str) :
    argumentOf (buildCurrent P) P.basetypes n = P.getArgument n := by
  unfold argumentOf Params.getArgument
  rw [get?_buildCurrent]
  cases P.reference.get? n with
  | none => rfl
  | some e => rfl

theorem termVal_readers {R P : Params K} (hp : R.pow = P.pow) (ev : Str → Res (Val K)) :
    ∀ t, termVal R ev t = termVal P ev t := by
  intro t
  unfold termVal
  rw [hp]

theorem productVal_readers {R P : Params K} (hp : R.pow = P.pow) (ev : Str → Res (Val K)) :
    ∀ ts, productVal R ev ts = productVal P ev ts := by
  intro ts
  induction ts with
  | nil => rfl
  | cons t ts ih =>
    cases ts with
    | nil => exact termVal_readers hp ev t
    | cons u us =>
      have h2 : ∀ Q : Params K, productVal Q ev (t :: u :: us) = (match termVal Q ev t with
          | .error e => .error e
          | .ok x => (productVal Q ev (u :: us)).map (fun y => x * y)) := fun Q => rfl
      rw [h2 R, h2 P, termVal_readers hp, ih]

theorem resolve_readers {R P : Params K} (hp : R.pow = P.pow) (ev : Str → Res (Val K)) (s : Str) :
    resolve R ev s = resolve P ev s := by
  unfold resolve resolveProduct
  simp only [productVal_readers hp]

theorem evaluateWith_readers {R P : Params K} (hi : R.readInt = P.readInt)
    (hf : R.readFloat = P.readFloat) (hp : R.pow = P.pow) (arg : Str → Option (Arg K)) :
    ∀ fuel s, evaluateWith R arg fuel s = evaluateWith P arg fuel s := by
  intro fuel
  induction fuel with
  | zero => intro s; rfl
  | succ fuel ih =>
    intro s
    have hc : R.cast s = P.cast s := by unfold Params.cast; rw [hi, hf]
    have he : evaluateWith R arg fuel = evaluateWith P arg fuel := funext ih
    unfold evaluateWith
    rw [hc, he]
    simp only [resolve_readers hp]

/-- Every cache holds what is on disk at the current paths. -/
structure RT.Valid (W : World K) (R : Params K) (s : RT K) : Prop where
  reference : ∀ r, s.reference = some r → W.reference s.source = .ok r
  user : ∀ u, s.user = some u → W.user s.conf = .ok u
  basetypes : ∀ b, s.basetypes = some b → W.basetypes s.source = .ok b
  current : ∀ c, s.current = some c → ∃ r u, W.reference s.source = .ok r
    ∧ W.user s.conf = .ok u ∧ c = buildCurrent { R with reference := r, user := u }

theorem getReference_valid {W : World K} {R : Params K} {s : RT K} (h : s.Valid W R) :
    (∀ e, W.reference s.source = .error e → s.getReference W = .error e)
    ∧ ∀ r, W.reference s.source = .ok r → ∃ s', s.getReference W = .ok (r, s') ∧ s'.Valid W R
      ∧ s'.source = s.source ∧ s'.conf = s.conf := by
  unfold RT.getReference
  cases hs : s.reference with
  | some r0 =>
    have h0 := h.reference r0 hs
    constructor
    · intro e he; rw [h0] at he; cases he
    · intro r hr; rw [h0] at hr; injection hr with hr; subst hr
      exact ⟨s, rfl, h, rfl, rfl⟩
  | none =>
    constructor
    · intro e he; simp only [he]; rfl
    · intro r hr
      simp only [hr]
      refine ⟨_, rfl, ⟨?_, h.user, h.basetypes, h.current⟩, rfl, rfl⟩
      intro r' hr'; injection hr' with hr'; subst hr'; exact hr

theorem getUser_valid {W : World K} {R : Params K} {s : RT K} (h : s.Valid W R) :
    (∀ e, W.user s.conf = .error e → s.getUser W = .error e)
    ∧ ∀ r, W.user s.conf = .ok r → ∃ s', s.getUser W = .ok (r, s') ∧ s'.Valid W R
      ∧ s'.source = s.source ∧ s'.conf = s.conf := by
  unfold RT.getUser
  cases hs : s.user with
  | some r0 =>
    have h0 := h.user r0 hs
    constructor
    · intro e he; rw [h0] at he; cases he
    · intro r hr; rw [h0] at hr; injection hr with hr; subst hr
      exact ⟨s, rfl, h, rfl, rfl⟩
  | none =>
    constructor
    · intro e he; simp only [he]; rfl
    · intro r hr
      simp only [hr]
      refine ⟨_, rfl, ⟨h.reference, ?_, h.basetypes, h.current⟩, rfl, rfl⟩
      intro r' hr'; injection hr' with hr'; subst hr'; exact hr

theorem getBasetypes_valid {W : World K} {R : Params K} {s : RT K} (h : s.Valid W R) :
    (∀ e, W.basetypes s.source = .error e → s.getBasetypes W = .error e)
    ∧ ∀ r, W.basetypes s.source = .ok r → ∃ s', s.getBasetypes W = .ok (r, s') ∧ s'.Valid W R
      ∧ s'.source = s.source ∧ s'.conf = s.conf := by
  unfold RT.getBasetypes
  cases hs : s.basetypes with
  | some r0 =>
    have h0 := h.basetypes r0 hs
    constructor
    · intro e he; rw [h0] at he; cases he
    · intro r hr; rw [h0] at hr; injection hr with hr; subst hr
      exact ⟨s, rfl, h, rfl, rfl⟩
  | none =>
    constructor
    · intro e he; simp only [he]; rfl
    · intro r hr
      simp only [hr]
      refine ⟨_, rfl, ⟨h.reference, h.user, ?_, h.current⟩, rfl, rfl⟩
      intro r' hr'; injection hr' with hr'; subst hr'; exact hr

theorem getCurrent_valid {W : World K} {R : Params K} {s : RT K} (h : s.Valid W R)
    {r : Dict Str (Str × Typ)} (hr : W.reference s.source = .ok r) :
    (∀ e, W.user s.conf = .error e → s.getCurrent W R = .error e)
    ∧ ∀ u, W.user s.conf = .ok u → ∃ s',
      s.getCurrent W R = .ok (buildCurrent { R with reference := r, user := u }, s')
      ∧ s'.Valid W R ∧ s'.source = s.source ∧ s'.conf = s.conf := by
  unfold RT.getCurrent
  cases hs : s.current with
  | some c =>
    obtain ⟨r0, u0, h1, h2, h3⟩ := h.current c hs
    rw [h1] at hr; injection hr with hr; subst hr
    constructor
    · intro e he; rw [h2] at he; cases he
    · intro u hu; rw [h2] at hu; injection hu with hu; subst hu
      exact ⟨s, by rw [h3], h, rfl, rfl⟩
  | none =>
    obtain ⟨s1, e1, v1, p1, q1⟩ := (getReference_valid h).2 r hr
    simp only [e1]
    have hu := getUser_valid v1
    rw [q1] at hu
    constructor
    · intro e he; simp only [hu.1 e he]
    · intro u hu'
      obtain ⟨s2, e2, v2, p2, q2⟩ := hu.2 u hu'
      simp only [e2]
      refine ⟨_, rfl, ⟨v2.reference, v2.user, v2.basetypes, ?_⟩, by simp [p2, p1], by simp [q2, q1]⟩
      intro c hc
      injection hc with hc
      refine ⟨r, u, ?_, ?_, hc.symm⟩
      · simp only [p2, p1]; exact hr
      · simp only [q2, q1]; exact hu'

theorem read_valid {W : World K} {R : Params K} {s : RT K} (h : s.Valid W R) (fuel : Nat)
    (n : Str) : (s.read W R fuel n).1 = W.value R fuel s.source s.conf n
      ∧ (s.read W R fuel n).2.Valid W R
      ∧ (s.read W R fuel n).2.source = s.source ∧ (s.read W R fuel n).2.conf = s.conf := by
  unfold RT.read World.value
  cases hr : W.reference s.source with
  | error e => rw [(getReference_valid h).1 e hr]; exact ⟨rfl, h, rfl, rfl⟩
  | ok r =>
    obtain ⟨s1, e1, v1, p1, q1⟩ := (getReference_valid h).2 r hr
    simp only [e1]
    by_cases hn : r.has n = true
    · simp only [hn, if_true]
      have hc := getCurrent_valid v1 (r := r) (by rw [p1]; exact hr)
      rw [q1] at hc
      cases hu : W.user s.conf with
      | error e => rw [hc.1 e hu]; exact ⟨rfl, v1, p1, q1⟩
      | ok u =>
        obtain ⟨s2, e2, v2, p2, q2⟩ := hc.2 u hu
        simp only [e2]
        have hb := getBasetypes_valid v2
        rw [p2, p1] at hb
        cases hbb : W.basetypes s.source with
        | error e => rw [hb.1 e hbb]; exact ⟨rfl, v2, p2.trans p1, q2⟩
        | ok b =>
          obtain ⟨s3, e3, v3, p3, q3⟩ := hb.2 b hbb
          simp only [e3]
          refine ⟨?_, v3, p3, q3.trans q2⟩
          rw [Params.lookup, if_pos hn, evaluate]
          have harg : argumentOf (buildCurrent { R with reference := r, user := u }) b
              = ({ R with reference := r, user := u, basetypes := b } : Params K).getArgument := by
            funext m
            rw [← argumentOf_eq]
            rfl
          rw [harg]
          exact evaluateWith_readers (R := R)
            (P := { R with reference := r, user := u, basetypes := b }) rfl rfl rfl _ fuel n
    · simp only [Bool.not_eq_true] at hn
      simp only [hn]
      exact ⟨rfl, v1, p1, q1⟩

theorem pathTo_valid {W : World K} {R : Params K} {s : RT K} (h : s.Valid W R) (u : Update) :
    (s.pathTo u).Valid W R := by
  obtain ⟨us, uc⟩ := u
  constructor
  · intro r hr
    cases us with
    | some p => simp [RT.pathTo] at hr
    | none => exact h.reference r (by simpa [RT.pathTo] using hr)
  · intro r hr
    cases uc with
    | some p => simp [RT.pathTo] at hr
    | none => exact h.user r (by simpa [RT.pathTo] using hr)
  · intro r hr
    cases us with
    | some p => simp [RT.pathTo] at hr
    | none => exact h.basetypes r (by simpa [RT.pathTo] using hr)
  · intro c hc; simp [RT.pathTo] at hc

theorem create_valid {W : World K} (R : Params K) {source conf : Option Str} {s : RT K}
    (h : RT.create W source conf = .ok s) : s.Valid W R ∧ s.source = source ∧ s.conf = conf := by
  unfold RT.create at h
  cases hr : W.reference source with
  | error e => rw [hr] at h; cases h
  | ok r =>
    rw [hr] at h
    injection h with h
    subst h
    refine ⟨⟨?_, by simp, by simp, by simp⟩, rfl, rfl⟩
    intro r' hr'; injection hr' with hr'; subst hr'; exact hr

/-- The paths after a history. -/
def pathsAfter (p : Option Str × Option Str) : List Event → Option Str × Option Str
  | [] => p
  | .update u :: es => pathsAfter (u.source.getD p.1, u.conf.getD p.2) es
  | .read _ :: es => pathsAfter p es

/-- **C52 (part).** After any history of path updates and reads, reading a parameter gives what a
new object with the current paths gives (the same value, or the same error); when no new object can
be created because the source does not load, reading fails with that error. -/
theorem c52_partial (W : World K) (R : Params K) (fuel : Nat) (source conf : Option Str) (s : RT K)
    (h : RT.create W source conf = .ok s) (es : List Event) (n : Str) :
    let now := pathsAfter (source, conf) es
    (∀ new, RT.create W now.1 now.2 = .ok new →
      ((s.afterAll W R fuel es).read W R fuel n).1 = (new.read W R fuel n).1)
    ∧ ∀ e, RT.create W now.1 now.2 = .error e →
      ((s.afterAll W R fuel es).read W R fuel n).1 = .error e := by
  have main : ∀ (es : List Event) (s : RT K), s.Valid W R →
      (s.afterAll W R fuel es).Valid W R
      ∧ ((s.afterAll W R fuel es).source, (s.afterAll W R fuel es).conf)
        = pathsAfter (s.source, s.conf) es := by
    intro es
    induction es with
    | nil => intro s hs; exact ⟨hs, rfl⟩
    | cons e es ih =>
      intro s hs
      cases e with
      | update u => exact ih (s.pathTo u) (pathTo_valid hs u)
      | read m =>
        obtain ⟨_, h2, h3, h4⟩ := read_valid hs fuel m
        have := ih _ h2
        rw [h3, h4] at this
        exact this
  obtain ⟨v0, p0, q0⟩ := create_valid R h
  obtain ⟨v1, v2⟩ := main es s v0
  rw [p0, q0] at v2
  intro now
  have e1 : (s.afterAll W R fuel es).source = now.1 := congrArg Prod.fst v2
  have e2 : (s.afterAll W R fuel es).conf = now.2 := congrArg Prod.snd v2
  have hr := (read_valid v1 fuel n).1
  rw [e1, e2] at hr
  constructor
  · intro new hnew
    obtain ⟨w0, w1, w2⟩ := create_valid R hnew
    rw [hr, (read_valid w0 fuel n).1, w1, w2]
  · intro e he
    rw [hr, World.value]
    unfold RT.create at he
    cases hw : W.reference now.1 with
    | error e' => rw [hw] at he; injection he with he; rw [he]
    | ok r => rw [hw] at he; cases he

end

/-- Two source directories with different parameters. -/
def sampleWorld : World Rat where
  config p := if p = c!"run.cfg" then .ok [(c!"a", c!"5")] else .error (.named "NonExistentPathError")
  reference p := if p = some c!"new" then .ok [(c!"b", (c!"2", .int))] else .ok [(c!"a", (c!"1", .int))]
  basetypes _ := .ok []

/-- The readers alone. -/
def plainReaders : Params Rat := rationalParams [] [] []

example : ∃ s, RT.create sampleWorld none none = .ok s
    ∧ (s.read sampleWorld plainReaders 9 c!"a").1 = .ok (.num 1)
    ∧ ((s.afterAll sampleWorld plainReaders 9 [.read c!"a", .update ⟨none, some (some c!"run.cfg")⟩]).read
        sampleWorld plainReaders 9 c!"a").1 = .ok (.num 5) :=
  ⟨_, rfl, by decide +kernel, by decide +kernel⟩

/-- **C52 fails in the code** for the list of parameters: after a change of the source path, the
object still lists (and counts) the old parameters, which it then fails to look up, and does not
list the new ones. -/
theorem c52_counterexample :
    ∃ s new, RT.create sampleWorld none none = .ok s
      ∧ RT.create sampleWorld (some c!"new") none = .ok new
      ∧ (s.pathTo ⟨some (some c!"new"), none⟩).keys = [c!"a"] ∧ new.keys = [c!"b"]
      ∧ ((s.pathTo ⟨some (some c!"new"), none⟩).read sampleWorld plainReaders 9 c!"a").1
          = .error .keyError
      ∧ ((s.pathTo ⟨some (some c!"new"), none⟩).read sampleWorld plainReaders 9 c!"b").1
          = .ok (.num 2) :=
  ⟨_, _, rfl, rfl, by decide +kernel, by decide +kernel, by decide +kernel, by decide +kernel⟩

end Verif.Runtime
