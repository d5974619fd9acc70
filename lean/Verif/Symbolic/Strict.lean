import Verif.Symbolic.RenderParse

/-!
# Helper lemmas for the parser with strict operator order
-/

set_option linter.unusedSimpArgs false
set_option linter.unusedSectionVars false

namespace Verif.Symbolic

open Verif.Py

/-! ## Specification -/

/-- The separators of the outermost level, from left to right. -/
def Tree.seps : Tree → List Sep
  | .bin o a _ => a.seps ++ [o]
  | _ => []

/-- The error for two successive separators. -/
def pairError : Sep → Sep → Option Err
  | .slash, .slash => some (.named "RatioError")
  | .slash, .star => some (.named "ProductError")
  | _, _ => none

/-- The error for the first offending pair of successive separators. -/
def firstError : List Sep → Option Err
  | a :: b :: l => (pairError a b).or (firstError (b :: l))
  | _ => none

/-- No offending pair at any level. -/
def Tree.Unambiguous : Tree → Prop
  | .num _ => True
  | .var _ _ => True
  | .group t _ => firstError t.seps = none ∧ t.Unambiguous
  | .bin _ a b => a.Unambiguous ∧ b.Unambiguous

/-! ## The loop -/

theorem firstError_snoc : ∀ (l : List Sep) (a b : Sep),
    firstError (l ++ [a, b]) = (firstError (l ++ [a])).or (pairError a b) := by
  intro l
  induction l with
  | nil => intro a b; simp [firstError]
  | cons x l ih =>
    intro a b
    cases l with
    | nil => simp [firstError]
    | cons y l =>
      have := ih a b
      simp only [List.cons_append, firstError] at this ⊢
      rw [this]
      cases pairError x y <;> simp

/-- The operator that the next step looks back at. -/
def Tree.lastOp (t : Tree) : Option Op := t.seps.getLast?.bind Sep.op

theorem operatorError_sep (a : Sep) (o : Sep) (op : Op) (ho : o.op = some op) :
    operatorError true op a.op = pairError a o := by
  cases a <;> cases o <;> simp [Sep.op] at ho <;> subst ho <;> rfl

theorem operatorError_none (op : Op) : operatorError true op none = none := by
  cases op <;> rfl

theorem getOperator_strict {prev : Option Op} {s : List Char} {op : Option Op} {rest : List Char}
    (h : getOperator false none s = .ok (op, rest)) :
    getOperator true prev s = match op.bind (fun o => operatorError true o prev) with
      | some e => .error e
      | none => .ok (op, rest) := by
  unfold getOperator at *
  cases hp : parseOperator s with
  | none =>
    rw [hp] at h
    simp at h
    obtain ⟨rfl, rfl⟩ := h
    simp
  | some r =>
    obtain ⟨o, r⟩ := r
    rw [hp] at h
    simp [operatorError] at h
    obtain ⟨rfl, rfl⟩ := h
    simp only [Option.bind_some]
    cases operatorError true o prev <;> rfl

theorem parseStep_strict {p : Rat} {prev : Option Op} {s : List Char} {new : Part}
    {op : Option Op} {rest : List Char} (h : parseStep false p none s = .ok (new, op, rest)) :
    parseStep true p prev s = match op.bind (fun o => operatorError true o prev) with
      | some e => .error e
      | none => .ok (new, op, rest) := by
  unfold parseStep at h
  obtain ⟨⟨op', s1⟩, h1, h⟩ := bind_ok_iff.1 h
  obtain ⟨⟨q, r⟩, h2, h⟩ := bind_ok_iff.1 h
  obtain ⟨n, h3, h⟩ := bind_ok_iff.1 h
  rw [pure_ok] at h
  simp only [Prod.mk.injEq] at h
  obtain ⟨rfl, rfl, rfl⟩ := h
  unfold parseStep
  rw [getOperator_strict h1]
  cases op'.bind (fun o => operatorError true o prev) with
  | some e => rfl
  | none =>
    simp only [bind, Except.bind] at *
    rw [h2]
    simp only
    rw [h3]
    rfl

/-- Append in front of a result. -/
def prepend (ps : List Part) (r : Res (List Part)) : Res (List Part) :=
  match r with
  | .ok qs => .ok (ps ++ qs)
  | .error e => .error e

theorem strict_step {p : Rat} {prev : Option Op} {s : List Char} {new : Part} {op : Option Op}
    {rest : List Char} {n m : Nat} (hne : s ≠ [])
    (h : parseStep false p none s = .ok (new, op, rest)) (hn : s.length ≤ n)
    (hm : rest.length ≤ m) :
    parseLoop true p n prev s = match op.bind (fun o => operatorError true o prev) with
      | some e => .error e
      | none => prepend [new] (parseLoop true p m op rest) := by
  obtain ⟨c, t, rfl⟩ := List.exists_cons_of_ne_nil hne
  have hl := (parseStep_length h).1
  cases n with
  | zero => simp at hn
  | succ n =>
    simp only [parseLoop]
    rw [parseStep_strict h]
    cases op.bind (fun o => operatorError true o prev) with
    | some e => rfl
    | none =>
      simp only [bind, Except.bind]
      rw [parseLoop_fuel true p n m op rest (by simp at *; omega) hm]
      cases parseLoop true p m op rest <;> rfl

theorem strict_render : ∀ (t : Tree) (p : Rat), t.Ok → p ≠ 0 → t.Exact p → ∀ rest prev n m,
    Cont rest → (t.render ++ rest).length ≤ n → rest.length ≤ m →
    parseLoop true p n prev (t.render ++ rest) = match firstError t.seps with
      | some e => .error e
      | none => prepend (partsOf t p) (parseLoop true p m t.lastOp rest) := by
  have hatom : ∀ (t : Tree), t.IsAtom → ∀ (p : Rat), t.Ok → p ≠ 0 → t.Exact p → ∀ rest prev n m,
      Cont rest → (t.render ++ rest).length ≤ n → rest.length ≤ m →
      parseLoop true p n prev (t.render ++ rest) = match firstError t.seps with
        | some e => .error e
        | none => prepend (partsOf t p) (parseLoop true p m t.lastOp rest) := by
    intro t ht p hok hp he rest prev n m hr hn hm
    have hs : t.seps = [] := by cases t <;> first | rfl | exact absurd ht (by simp [Tree.IsAtom])
    rw [partsOf_atom ht, hs, Tree.lastOp, hs]
    rw [strict_step (m := m) (fun h => Tree.render_ne_nil hok (List.append_eq_nil_iff.1 h).1)
      (step_first ht hok hp he hr) hn hm]
    rfl
  intro t
  induction t with
  | num c => exact hatom _ trivial
  | var n x => exact hatom _ trivial
  | group t x _ => exact hatom _ trivial
  | bin o a b iha ihb =>
    intro p hok hp he rest prev n m hr hn hm
    obtain ⟨ha, hb, hat⟩ := hok
    have hc : Cont (o.str ++ (b.render ++ rest)) := cont_sep o (b.ends hb) hr
    have h1 := iha p ha hp he.1 (o.str ++ (b.render ++ rest)) prev n
      (o.str ++ (b.render ++ rest)).length hc (by simp [Tree.render] at *; omega) (le_refl _)
    have e1 : (Tree.bin o a b).render ++ rest = a.render ++ (o.str ++ (b.render ++ rest)) := by
      simp [Tree.render]
    rw [e1, h1]
    have hstep := strict_step (n := (o.str ++ (b.render ++ rest)).length) (m := m)
      (prev := a.lastOp) (by obtain ⟨t, ht⟩ := o.str_cons; rw [ht]; simp)
      (step_sep hat hb hp o he.2 hr) (le_refl _) hm
    rw [hstep]
    have hlast : (Tree.bin o a b).lastOp = o.op := by
      unfold Tree.lastOp; simp [Tree.seps]
    have hpart : partsOf (.bin o a b) p = partsOf a p ++ [atomPart b (o.sign p)] := by
      simp [partsOf, partsOf_atom hat]
    rw [hlast, hpart]
    -- the error of the last pair
    have herr : firstError (Tree.bin o a b).seps
        = (firstError a.seps).or (o.op.bind (fun op => operatorError true op a.lastOp)) := by
      simp only [Tree.seps]
      rcases List.eq_nil_or_concat a.seps with h | ⟨l, x, h⟩
      · rw [Tree.lastOp, h]
        cases o.op <;> simp [firstError, operatorError_none]
      · rw [h, Tree.lastOp, h]
        simp only [List.concat_eq_append, List.append_assoc, List.cons_append, List.nil_append]
        rw [firstError_snoc]
        simp only [List.getLast?_append, List.getLast?_singleton]
        congr 1
        simp only [Option.some_or, Option.bind_some]
        cases ho : o.op with
        | none =>
          have : o = .blank := by cases o <;> simp [Sep.op] at ho; rfl
          subst this
          cases x <;> rfl
        | some op => simp [operatorError_sep x o op ho]
    rw [herr]
    cases firstError a.seps with
    | some e => rfl
    | none =>
      simp only [Option.none_or]
      cases o.op.bind (fun op => operatorError true op a.lastOp) with
      | some e => rfl
      | none =>
        simp only
        cases parseLoop true p m o.op rest <;> simp [prepend]

/-- The two order errors. -/
def OrderError (e : Err) : Prop := e = .named "RatioError" ∨ e = .named "ProductError"

theorem firstError_orderError : ∀ (l : List Sep) (e : Err), firstError l = some e → OrderError e := by
  intro l
  induction l with
  | nil => intro e h; cases h
  | cons a l ih =>
    intro e h
    cases l with
    | nil => cases h
    | cons b l =>
      simp only [firstError] at h
      cases hp : pairError a b with
      | some e' =>
        rw [hp] at h
        simp at h; subst h
        cases a <;> cases b <;> simp [pairError] at hp <;> subst hp <;> simp [OrderError]
      | none => rw [hp] at h; exact ih e (by simpa using h)

/-! ## The recursion -/

theorem resolve_group_strict (t : Tree) (c q : Rat) (n : Nat) (hok : t.Ok) (hq : q ≠ 0)
    (he : t.Exact q) :
    resolve true (n + 1) ⟨c, t.render, q⟩ = match firstError t.seps with
      | some e => .error e
      | none => do
        let ls ← (partsOf t q).mapM (Part.resolveWith (resolve true n))
        return ls.flatten ++ [mkOperand c one 1] := by
  have h := strict_render t q hok hq he [] none t.render.length 0 (Or.inl rfl) (by simp) (by simp)
  simp only [List.append_nil] at h
  rw [resolve]
  simp only [h]
  cases firstError t.seps with
  | some e => rfl
  | none => simp [parseLoop, prepend, bind, Except.bind]

theorem resolve_parts_strict : ∀ (t : Tree) (q : Rat) (n : Nat), t.Ok → q ≠ 0 → t.Exact q →
    t.render.length ≤ n →
    (t.Unambiguous → ∃ ls, (partsOf t q).mapM (Part.resolveWith (resolve true n)) = .ok ls
      ∧ ls.flatten = termsOf t q)
    ∧ (¬ t.Unambiguous → ∃ e, (partsOf t q).mapM (Part.resolveWith (resolve true n)) = .error e
      ∧ OrderError e) := by
  intro t
  induction t with
  | num c =>
    intro q n _ _ _ _
    refine ⟨fun _ => ⟨[[⟨ratPow c q, one, q⟩]], by simp [partsOf, atomPart, Part.resolveWith, bind,
      Except.bind, pure, Except.pure], by simp [termsOf]⟩, fun h => absurd trivial h⟩
  | var m x =>
    intro q n _ _ _ _
    exact ⟨fun _ => ⟨[[⟨1, m, x * q⟩]], by simp [partsOf, atomPart, Part.resolveWith, bind,
      Except.bind, pure, Except.pure], by simp [termsOf]⟩, fun h => absurd trivial h⟩
  | group t x ih =>
    intro q n hok hq he hn
    obtain ⟨hok, hx⟩ := hok
    have hxq : x * q ≠ 0 := mul_ne_zero hx.1 hq
    have hlen : t.render.length + 2 ≤ n := by
      simp [Tree.render] at hn; omega
    cases n with
    | zero => omega
    | succ n =>
      obtain ⟨i1, i2⟩ := ih (x * q) n hok hxq he (by omega)
      have hg := resolve_group_strict t 1 (x * q) n hok hxq he
      constructor
      · rintro ⟨hf, hu⟩
        obtain ⟨ls, h1, h2⟩ := i1 hu
        refine ⟨[termsOf t (x * q) ++ [⟨1, one, 1⟩]], ?_, by simp [termsOf]⟩
        simp only [partsOf, atomPart, List.mapM_cons, List.mapM_nil, Part.resolveWith]
        rw [hg, hf]
        simp [h1, bind, Except.bind, pure, Except.pure, h2, mkOperand, orOne, one]
      · intro hnu
        simp only [partsOf, atomPart, List.mapM_cons, List.mapM_nil, Part.resolveWith]
        rw [hg]
        cases hf : firstError t.seps with
        | some e => exact ⟨e, rfl, firstError_orderError _ _ hf⟩
        | none =>
          obtain ⟨e, h1, h2⟩ := i2 (fun hu => hnu ⟨hf, hu⟩)
          exact ⟨e, by simp [h1, bind, Except.bind], h2⟩
  | bin o a b iha ihb =>
    intro q n hok hq he hn
    obtain ⟨ha, hb, _⟩ := hok
    have hsq : o.sign q ≠ 0 := by cases o <;> simpa [Sep.sign] using hq
    have hn' : a.render.length + b.render.length ≤ n := by
      simp [Tree.render] at hn; omega
    obtain ⟨a1, a2⟩ := iha q n ha hq he.1 (by omega)
    obtain ⟨b1, b2⟩ := ihb (o.sign q) n hb hsq he.2 (by omega)
    have happ : (partsOf (.bin o a b) q).mapM (Part.resolveWith (resolve true n)) = do
        let us ← (partsOf a q).mapM (Part.resolveWith (resolve true n))
        let vs ← (partsOf b (o.sign q)).mapM (Part.resolveWith (resolve true n))
        return us ++ vs := by
      rw [partsOf, List.mapM_append]
    rw [happ]
    constructor
    · rintro ⟨ua, ub⟩
      obtain ⟨l1, e1, e2⟩ := a1 ua
      obtain ⟨l2, e3, e4⟩ := b1 ub
      exact ⟨l1 ++ l2, by simp [e1, e3, bind, Except.bind, pure, Except.pure],
        by simp [e2, e4, termsOf]⟩
    · intro hnu
      by_cases ua : a.Unambiguous
      · obtain ⟨l1, e1, e2⟩ := a1 ua
        obtain ⟨e, h1, h2⟩ := b2 (fun ub => hnu ⟨ua, ub⟩)
        exact ⟨e, by simp [e1, h1, bind, Except.bind], h2⟩
      · obtain ⟨e, h1, h2⟩ := a2 ua
        exact ⟨e, by simp [h1, bind, Except.bind], h2⟩

end Verif.Symbolic
