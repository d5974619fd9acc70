/-!
# Python base types

Common vocabulary of the models: exceptions as values, insertion-ordered
dictionaries, and the Python sequence operations that the modelled code uses.
Nothing here mirrors a goats function; this file models the *language*.
-/

set_option linter.unusedSectionVars false

namespace Verif.Py

/-- The exception classes that the models distinguish. -/
inductive Err where
  | keyError | indexError | valueError | typeError | attributeError
  | notImplemented | recursionError | zeroDivision
  | named (name : String)
  deriving DecidableEq, Repr

/-- Result of a call that may raise. -/
abbrev Res (α : Type _) := Except Err α

instance {ε α : Type _} [DecidableEq ε] [DecidableEq α] : DecidableEq (Except ε α)
  | .ok a, .ok b => if h : a = b then isTrue (h ▸ rfl) else isFalse (fun h' => h (by injection h'))
  | .error a, .error b =>
    if h : a = b then isTrue (h ▸ rfl) else isFalse (fun h' => h (by injection h'))
  | .ok _, .error _ => isFalse nofun
  | .error _, .ok _ => isFalse nofun

/-! ## Dictionaries -/

/-- A Python `dict`: association list in insertion order. -/
abbrev Dict (κ : Type _) (ν : Type _) := List (κ × ν)

namespace Dict

variable {κ ν : Type _} [DecidableEq κ]

/-- `d.get(k)`. -/
def get? : Dict κ ν → κ → Option ν
  | [], _ => none
  | (k', v) :: d, k => if k' = k then some v else get? d k

/-- `k in d`. -/
def has (d : Dict κ ν) (k : κ) : Bool := d.any (fun p => p.1 = k)

/-- `list(d)`. -/
def keys (d : Dict κ ν) : List κ := d.map (·.1)

/-- `list(d.values())`. -/
def values (d : Dict κ ν) : List ν := d.map (·.2)

/-- `d[k] = v`: replaces in place when present, appends otherwise. -/
def set : Dict κ ν → κ → ν → Dict κ ν
  | [], k, v => [(k, v)]
  | (k', v') :: d, k, v => if k' = k then (k', v) :: d else (k', v') :: set d k v

/-- `del d[k]` (no-op when absent; callers check presence). -/
def del (d : Dict κ ν) (k : κ) : Dict κ ν := d.filter (fun p => p.1 ≠ k)

/-- `d.update(pairs)` / `dict(pairs)` when `d` is empty. -/
def update (d : Dict κ ν) (ps : List (κ × ν)) : Dict κ ν :=
  ps.foldl (fun d p => d.set p.1 p.2) d

/-- `dict(pairs)`. -/
def ofPairs (ps : List (κ × ν)) : Dict κ ν := update [] ps

@[simp] theorem get?_nil (k : κ) : get? ([] : Dict κ ν) k = none := rfl

theorem get?_cons (k' : κ) (v : ν) (d : Dict κ ν) (k : κ) :
    get? ((k', v) :: d) k = if k' = k then some v else get? d k := rfl

@[simp] theorem keys_nil : keys ([] : Dict κ ν) = [] := rfl

@[simp] theorem keys_cons (p : κ × ν) (d : Dict κ ν) : keys (p :: d) = p.1 :: keys d := rfl

@[simp] theorem keys_append (d e : Dict κ ν) : keys (d ++ e) = keys d ++ keys e := by
  simp [keys]

theorem has_iff_mem_keys (d : Dict κ ν) (k : κ) : d.has k = true ↔ k ∈ d.keys := by
  simp [has, keys]

theorem has_eq_isSome (d : Dict κ ν) (k : κ) : d.has k = (d.get? k).isSome := by
  induction d with
  | nil => rfl
  | cons p d ih =>
    obtain ⟨k', v⟩ := p
    by_cases h : k' = k
    · simp [has, get?, h]
    · simp only [has, List.any_cons, get?, h, if_false, decide_false, Bool.false_or] at *
      simpa using ih

theorem get?_isSome_iff (d : Dict κ ν) (k : κ) : (d.get? k).isSome ↔ k ∈ d.keys := by
  rw [← has_eq_isSome, has_iff_mem_keys]

theorem get?_eq_none_iff (d : Dict κ ν) (k : κ) : d.get? k = none ↔ k ∉ d.keys := by
  rw [← get?_isSome_iff]; cases d.get? k <;> simp

theorem mem_of_get? {d : Dict κ ν} {k : κ} {v : ν} (h : d.get? k = some v) : (k, v) ∈ d := by
  induction d with
  | nil => simp at h
  | cons p d ih =>
    obtain ⟨k', v'⟩ := p
    rw [get?_cons] at h
    split at h
    · next hk => injection h with h; subst h; subst hk; simp
    · exact List.mem_cons_of_mem _ (ih h)

theorem get?_of_mem {d : Dict κ ν} (hd : d.keys.Nodup) {k : κ} {v : ν} (h : (k, v) ∈ d) :
    d.get? k = some v := by
  induction d with
  | nil => simp at h
  | cons p d ih =>
    obtain ⟨k', v'⟩ := p
    simp only [keys_cons, List.nodup_cons] at hd
    rw [get?_cons]
    rcases List.mem_cons.1 h with h | h
    · injection h with h1 h2; subst h1; subst h2; simp
    · have hk : k' ≠ k := by
        rintro rfl
        exact hd.1 (List.mem_map.2 ⟨_, h, rfl⟩)
      simp [hk, ih hd.2 h]

theorem get?_eq_some_iff {d : Dict κ ν} (hd : d.keys.Nodup) (k : κ) (v : ν) :
    d.get? k = some v ↔ (k, v) ∈ d :=
  ⟨mem_of_get?, get?_of_mem hd⟩

theorem get?_set (d : Dict κ ν) (k : κ) (v : ν) (k' : κ) :
    (d.set k v).get? k' = if k = k' then some v else d.get? k' := by
  induction d with
  | nil => simp [set, get?]
  | cons p d ih =>
    obtain ⟨k0, v0⟩ := p
    simp only [set]
    split
    · next h => subst h; simp only [get?]; split <;> simp_all
    · next h =>
      simp only [get?, ih]
      split
      · next h2 => subst h2; simp [Ne.symm h]
      · rfl

@[simp] theorem get?_set_self (d : Dict κ ν) (k : κ) (v : ν) : (d.set k v).get? k = some v := by
  simp [get?_set]

theorem get?_set_ne (d : Dict κ ν) {k k' : κ} (v : ν) (h : k ≠ k') :
    (d.set k v).get? k' = d.get? k' := by
  simp [get?_set, h]

theorem keys_set (d : Dict κ ν) (k : κ) (v : ν) :
    (d.set k v).keys = if k ∈ d.keys then d.keys else d.keys ++ [k] := by
  induction d with
  | nil => simp [set]
  | cons p d ih =>
    obtain ⟨k0, v0⟩ := p
    simp only [set]
    split
    · next h => simp [h]
    · next h =>
      simp only [keys_cons, ih, List.mem_cons]
      by_cases hk : k ∈ keys d
      · simp [hk]
      · simp [hk, Ne.symm h]

theorem mem_keys_set (d : Dict κ ν) (k : κ) (v : ν) (x : κ) :
    x ∈ (d.set k v).keys ↔ x = k ∨ x ∈ d.keys := by
  rw [keys_set]; split
  · next h => constructor
              · exact Or.inr
              · rintro (rfl | h')
                · exact h
                · exact h'
  · simp [or_comm]

theorem nodup_keys_set {d : Dict κ ν} (hd : d.keys.Nodup) (k : κ) (v : ν) :
    (d.set k v).keys.Nodup := by
  rw [keys_set]; split
  · exact hd
  · next h => exact List.nodup_append.2 ⟨hd, by simp, by
      intro a ha b hb; simp at hb; subst hb; rintro rfl; exact h ha⟩

/-- Assigning a new key appends. -/
theorem set_of_not_mem {d : Dict κ ν} {k : κ} (h : k ∉ d.keys) (v : ν) :
    d.set k v = d ++ [(k, v)] := by
  induction d with
  | nil => rfl
  | cons p d ih =>
    obtain ⟨k0, v0⟩ := p
    simp only [keys_cons, List.mem_cons, not_or] at h
    simp [set, Ne.symm h.1, ih h.2]

theorem get?_del (d : Dict κ ν) (k k' : κ) :
    (d.del k).get? k' = if k = k' then none else d.get? k' := by
  induction d with
  | nil => simp [del]
  | cons p d ih =>
    obtain ⟨k0, v0⟩ := p
    by_cases h : k0 = k
    · subst h
      have : del ((k0, v0) :: d) k0 = del d k0 := by simp [del]
      rw [this, ih]
      split
      · rfl
      · next h2 => simp [get?, h2]
    · have : del ((k0, v0) :: d) k = (k0, v0) :: del d k := by simp [del, h]
      rw [this, get?_cons, ih, get?_cons]
      split
      · next h2 => subst h2; simp [Ne.symm h]
      · rfl

theorem keys_del (d : Dict κ ν) (k : κ) : (d.del k).keys = d.keys.filter (· ≠ k) := by
  induction d with
  | nil => rfl
  | cons p d ih =>
    by_cases h : p.1 = k
    · have : del (p :: d) k = del d k := by simp [del, h]
      simp [this, ih, h]
    · have : del (p :: d) k = p :: del d k := by simp [del, h]
      simp [this, ih, h]

theorem nodup_keys_del {d : Dict κ ν} (hd : d.keys.Nodup) (k : κ) : (d.del k).keys.Nodup := by
  rw [keys_del]; exact hd.sublist List.filter_sublist

@[simp] theorem update_nil (d : Dict κ ν) : d.update [] = d := rfl

theorem update_cons (d : Dict κ ν) (p : κ × ν) (ps) :
    d.update (p :: ps) = (d.set p.1 p.2).update ps := rfl

theorem update_append (d : Dict κ ν) (ps qs) :
    d.update (ps ++ qs) = (d.update ps).update qs := by
  simp [update, List.foldl_append]

theorem nodup_keys_update {d : Dict κ ν} (hd : d.keys.Nodup) (ps) :
    (d.update ps).keys.Nodup := by
  induction ps generalizing d with
  | nil => exact hd
  | cons p ps ih => exact ih (nodup_keys_set hd _ _)

theorem nodup_keys_ofPairs (ps : List (κ × ν)) : (ofPairs ps).keys.Nodup :=
  nodup_keys_update (by simp) ps

theorem mem_keys_update (d : Dict κ ν) (ps : List (κ × ν)) (k : κ) :
    k ∈ (d.update ps).keys ↔ k ∈ d.keys ∨ k ∈ ps.map (·.1) := by
  induction ps generalizing d with
  | nil => simp
  | cons p ps ih =>
    rw [update_cons, ih, mem_keys_set]
    simp only [List.map_cons, List.mem_cons]
    constructor
    · rintro ((h | h) | h)
      · exact Or.inr (Or.inl h)
      · exact Or.inl h
      · exact Or.inr (Or.inr h)
    · rintro (h | h | h)
      · exact Or.inl (Or.inr h)
      · exact Or.inl (Or.inl h)
      · exact Or.inr h

/-- Later pairs win. -/
theorem get?_update (d : Dict κ ν) (ps : List (κ × ν)) (k : κ) :
    (d.update ps).get? k = (get? (List.reverse ps) k).or (d.get? k) := by
  induction ps generalizing d with
  | nil => simp
  | cons p ps ih =>
    obtain ⟨k0, v0⟩ := p
    rw [update_cons, ih, get?_set]
    have happ : ∀ (xs : List (κ × ν)), get? (xs ++ [(k0, v0)]) k
        = (get? xs k).or (if k0 = k then some v0 else none) := by
      intro xs
      induction xs with
      | nil => simp [get?]
      | cons q xs ihx => obtain ⟨a, b⟩ := q; simp only [List.cons_append, get?, ihx]; split <;> simp
    rw [List.reverse_cons, happ]
    cases get? (List.reverse ps) k with
    | some _ => simp
    | none => by_cases h : k0 = k <;> simp [h]

/-- With distinct keys, `dict(pairs)` is the list of pairs itself. -/
theorem update_of_nodup {d : Dict κ ν} {ps : List (κ × ν)}
    (h : (d.keys ++ keys ps).Nodup) : d.update ps = d ++ ps := by
  induction ps generalizing d with
  | nil => simp
  | cons p ps ih =>
    have hp : p.1 ∉ d.keys := by
      intro hm
      have := (List.nodup_append.1 h).2.2 _ hm p.1 (by simp)
      exact this rfl
    rw [update_cons, set_of_not_mem hp, ih]
    · simp
    · simpa [List.append_assoc] using h

theorem ofPairs_of_nodup {ps : List (κ × ν)} (h : (keys ps).Nodup) : ofPairs ps = ps := by
  simpa [ofPairs] using update_of_nodup (d := []) (ps := ps) (by simpa using h)

end Dict

end Verif.Py
