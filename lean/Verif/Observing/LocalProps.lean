import Verif.Observing.Props

/-!
# Property C281: a constraint affects what it names, in whatever order constraints are given
-/

set_option linter.unusedSimpArgs false
set_option linter.unusedSectionVars false

namespace Verif.Observing

open Verif.Py

section
variable {Q V W I : Type}

/-- What the user finds under a name after a history: the constraint, the quantity, the value and the index. -/
def found (S : Setup Q V W I) (history : List (Event V)) (k : Str) : Option V × Option (Q ⊕ V) × Res (Option W) × Res (Option I) :=
  let c : Ctx V W I := (Ctx.new : Ctx V W I).run S history
  (((c.getConstraints S).1).get? k, (c.getQuantity S k).1, (c.getValue S k).1, (c.getIndex S k).1)

theorem found_of_inForce (S : Setup Q V W I) {h h' : List (Event V)} {k : Str} (e : inForce S h k = inForce S h' k) :
    found S h k = found S h' k := by
  obtain ⟨c1, v1, i1, -⟩ := c57_own_constraints (Q := Q) (W := W) (I := I) S h
  obtain ⟨c2, v2, i2, -⟩ := c57_own_constraints (Q := Q) (W := W) (I := I) S h'
  unfold found
  simp only [Prod.mk.injEq]
  refine ⟨by rw [c1, c2, e], ?_, by rw [v1, v2, valueOf, valueOf, e], by rw [i1, i2, indexOf, indexOf, e]⟩
  unfold Ctx.getQuantity
  cases firstEntry S.mappings k with
  | some q => rfl
  | none => simp only [c1, c2, e]

theorem lastSaid_congr (zs : List (Event V)) {xs ys : List (Event V)} {k : Str} (h : lastSaid xs k = lastSaid ys k) :
    lastSaid (zs ++ xs) k = lastSaid (zs ++ ys) k := by
  induction zs with
  | nil => exact h
  | cons z zs ih =>
    cases z with
    | constrain new append => simp only [List.cons_append, lastSaid, ih]
    | _ => exact ih

theorem lastSaid_queries (qs : List (Event V)) (hq : ∀ e ∈ qs, e.isConstrain = false) (xs : List (Event V)) (k : Str) :
    lastSaid (qs ++ xs) k = lastSaid xs k := by
  induction qs with
  | nil => rfl
  | cons q qs ih =>
    have ih := ih (fun e he => hq e (List.mem_cons_of_mem _ he))
    have := hq q List.mem_cons_self
    cases q with
    | constrain _ _ => simp [Event.isConstrain] at this
    | _ => exact ih

theorem inForce_congr (S : Setup Q V W I) (rest : List (Event V)) {h h' : List (Event V)} {k : Str}
    (e : lastSaid h.reverse k = lastSaid h'.reverse k) : inForce S (h ++ rest) k = inForce S (h' ++ rest) k := by
  unfold inForce
  rw [List.reverse_append, List.reverse_append, lastSaid_congr _ e]

theorem get?_reverse_none {new : List (Str × V)} {k : Str} (hk : k ∉ new.map (·.1)) : Dict.get? new.reverse k = none := by
  rw [Dict.get?_eq_none_iff]
  simpa [Dict.keys] using hk

theorem get?_reverse_append (a b : List (Str × V)) (k : Str) :
    Dict.get? (a ++ b).reverse k = (Dict.get? b.reverse k).or (Dict.get? a.reverse k) := by
  rw [← Option.or_none (o := Dict.get? (a ++ b).reverse k), show (none : Option V) = Dict.get? ([] : Dict Str V) k from rfl,
    ← Dict.get?_update, Dict.update_append, Dict.get?_update, Dict.get?_update]
  simp [Dict.get?]

/-- **C281.** An appended constraint changes nothing that is found under a name it does not mention, whatever happened before and
whatever is asked or constrained later; and constraints that replace earlier ones leave other names as in a new context. -/
theorem c281_others (S : Setup Q V W I) (history rest : List (Event V)) (new : List (Str × V)) (k : Str) (hk : k ∉ new.map (·.1)) :
    found S (history ++ [.constrain new true] ++ rest) k = found S (history ++ rest) k ∧
    found S (history ++ [.constrain new false] ++ rest) k = found S rest k := by
  constructor
  · apply found_of_inForce
    refine inForce_congr S rest ?_
    rw [List.reverse_append]
    simp [lastSaid, get?_reverse_none hk]
  · apply found_of_inForce
    rw [show rest = [] ++ rest from rfl, ← List.append_assoc, List.append_nil]
    refine inForce_congr S rest ?_
    rw [List.reverse_append]
    simp [lastSaid, get?_reverse_none hk]

/-- **C281, order.** The order in which constraints with different names are given in one call does not matter. -/
theorem c281_order (S : Setup Q V W I) (history rest : List (Event V)) (new new' : List (Str × V)) (hp : new.Perm new')
    (hn : (new.map (·.1)).Nodup) (append : Bool) (k : Str) :
    found S (history ++ [.constrain new append] ++ rest) k = found S (history ++ [.constrain new' append] ++ rest) k := by
  apply found_of_inForce
  refine inForce_congr S rest ?_
  have hn' : (new'.map (·.1)).Nodup := (hp.map _).nodup_iff.1 hn
  have nd : ∀ l : List (Str × V), (l.map (·.1)).Nodup → (Dict.keys l.reverse).Nodup := fun l h => by
    unfold Dict.keys
    rw [List.map_reverse]
    exact List.nodup_reverse.2 h
  have e : Dict.get? new.reverse k = Dict.get? new'.reverse k := by
    apply Option.ext
    intro v
    have h1 := Dict.get?_eq_some_iff (d := new.reverse) (nd _ hn) k v
    have h2 := Dict.get?_eq_some_iff (d := new'.reverse) (nd _ hn') k v
    rw [h1, h2, List.mem_reverse, List.mem_reverse, hp.mem_iff]
  simp only [List.reverse_append, List.reverse_cons, List.reverse_nil, List.nil_append, List.cons_append, lastSaid, e]

/-- **C281, parts.** Constraints can be given in one call, or in two with look-ups in between. -/
theorem c281_parts (S : Setup Q V W I) (history queries rest : List (Event V)) (hq : ∀ e ∈ queries, e.isConstrain = false)
    (a b : List (Str × V)) (append : Bool) (k : Str) :
    found S (history ++ [.constrain a append] ++ queries ++ [.constrain b true] ++ rest) k
      = found S (history ++ [.constrain (a ++ b) append] ++ rest) k := by
  apply found_of_inForce
  refine inForce_congr S rest ?_
  simp only [List.reverse_append, List.reverse_cons, List.reverse_nil, List.nil_append, List.cons_append, List.append_assoc]
  have hq' : ∀ e ∈ queries.reverse, e.isConstrain = false := fun e he => hq e (List.mem_reverse.1 he)
  show lastSaid (.constrain b true :: (queries.reverse ++ (.constrain a append :: history.reverse))) k
    = lastSaid (.constrain (a ++ b) append :: history.reverse) k
  simp only [lastSaid]
  rw [lastSaid_queries _ hq']
  simp only [lastSaid]
  rw [get?_reverse_append]
  cases Dict.get? b.reverse k <;> simp

/-- **C281, exchange.** Two appended calls with different names can be exchanged. -/
theorem c281_exchange (S : Setup Q V W I) (history rest : List (Event V)) (a b : List (Str × V))
    (hd : ∀ n ∈ a.map (·.1), n ∉ b.map (·.1)) (k : Str) :
    found S (history ++ [.constrain a true, .constrain b true] ++ rest) k
      = found S (history ++ [.constrain b true, .constrain a true] ++ rest) k := by
  apply found_of_inForce
  refine inForce_congr S rest ?_
  simp only [List.reverse_append, List.reverse_cons, List.reverse_nil, List.nil_append, List.cons_append, lastSaid]
  by_cases hk : k ∈ a.map (·.1)
  · rw [get?_reverse_none (hd k hk)]
    cases Dict.get? a.reverse k <;> simp
  · rw [get?_reverse_none hk]
    cases Dict.get? b.reverse k <;> simp

end

/-- A context with one constant and a default, and two constraints. -/
def small : Setup Nat Int Int Int :=
  ⟨[], [(['u'], 7)], [], [(['c'], 3)], fun v => .ok (2 * v), [(['t'], fun o => .ok (o.getD 0))]⟩

example : (found small [.constrain [(['c'], 4), (['t'], 5)] false] ['c'] = (some 4, some (.inr 4), .ok (some 8), .ok none)) ∧
    (found small [.constrain [(['t'], 5)] false, .value ['c'], .constrain [(['c'], 4)] true] ['t']
      = (some 5, some (.inr 5), .ok (some 10), .ok (some 5))) ∧
    (found small [.constrain [(['t'], 5)] false] ['u'] = (some 7, some (.inr 7), .ok (some 14), .ok none)) ∧
    (found small [.constrain [(['t'], 5)] false] ['c'] = (none, none, .ok (some 6), .ok none)) :=
  ⟨rfl, rfl, rfl, rfl⟩

end Verif.Observing
