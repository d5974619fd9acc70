import Verif.Reductions.Checks

/-!
# Dimensions, quantities and systems by name (C214-C216)
-/

set_option linter.unusedSimpArgs false

namespace Verif.Reductions

open Verif.Py Verif.Symbolic Verif.Metric Verif.Systems

/-! ## C214: the quantities with a dimension -/

/-- Two expressions mean the same: they have the same value, whatever positive numbers their bases stand for. -/
def SameMeaning (a b : List Term) : Prop := ∀ v, value v a = value v b

theorem quantities_mapM {table : List (Str × PerSystem Str)} {s : System} (d : List Term) {f : Str × PerSystem Str → List Term}
    (h : ∀ e ∈ table, ofString (e.2.get s) = .ok (f e)) :
    quantitiesOf table s d = .ok ((table.filter (fun e => exprEq d (f e))).map (·.1)) := by
  unfold quantitiesOf
  rw [mapM_ok (g := fun e => (e.1, exprEq d (f e)))]
  · simp only [bind, Except.bind, pure, Except.pure]
    congr 1
    clear h
    induction table with
    | nil => rfl
    | cons e es ih =>
      by_cases he : exprEq d (f e) = true
      · simp [he, ih, List.filter_cons]
      · simp [he, ih, List.filter_cons]
  · intro e he
    rw [h e he]
    rfl

/-- **C214**, for an arbitrary table of dimensions: `Dimension(d).quantities(system)` has a quantity if and only if the
listed dimension of the quantity means the same as `d`. -/
theorem c214_generic (table : List (Str × PerSystem Str)) (s : System) (d : List Term) (hd : IsExpr d)
    (f : Str × PerSystem Str → List Term) (h : ∀ e ∈ table, ofString (e.2.get s) = .ok (f e) ∧ IsExpr (f e)) :
    ∃ qs, quantitiesOf table s d = .ok qs ∧
      ∀ q, q ∈ qs ↔ ∃ e ∈ table, e.1 = q ∧ SameMeaning d (f e) := by
  refine ⟨_, quantities_mapM d (fun e he => (h e he).1), fun q => ?_⟩
  simp only [List.mem_map, List.mem_filter]
  constructor
  · rintro ⟨e, ⟨he, hq⟩, rfl⟩
    exact ⟨e, he, rfl, ((c20_eq d (f e) hd (h e he).2).2).1 hq⟩
  · rintro ⟨e, he, rfl, hm⟩
    exact ⟨e, ⟨he, ((c20_eq d (f e) hd (h e he).2).2).2 hm⟩, rfl⟩

/-- The listed dimension of a quantity, parsed. -/
def listed (s : System) (e : Str × PerSystem Str) : List Term :=
  match ofString (e.2.get s) with
  | .ok t => t
  | .error _ => []

/-- The check of the table of dimensions. -/
theorem listed_check : ∀ e ∈ canonicalDimensions, exprB (listed .mks e) = true ∧ exprB (listed .cgs e) = true := by
  decide +kernel

theorem exprB_isExpr {e : List Term} (h : exprB e = true) : IsExpr e := by
  simp only [exprB, Bool.and_eq_true, decide_eq_true_eq, List.all_eq_true, Bool.or_eq_true] at h
  obtain ⟨⟨h1, h2⟩, h3⟩ := h
  refine ⟨e, h1, ?_, ?_⟩
  · intro t ht
    obtain ⟨⟨⟨⟨a, b⟩, c⟩, _⟩, _⟩ := h2 t ht
    exact ⟨by rw [a]; exact one_ne_zero, b, c⟩
  · cases hr : reduce e with
    | ok r => rw [hr] at h3; simp only [decide_eq_true_eq] at h3; rw [h3]
    | error _ => rw [hr] at h3; cases h3

theorem listed_spec {s : System} {e : Str × PerSystem Str} (h : e ∈ canonicalDimensions) :
    ofString (e.2.get s) = .ok (listed s e) ∧ IsExpr (listed s e) := by
  have hb : exprB (listed s e) = true := by
    cases s
    · exact (listed_check e h).1
    · exact (listed_check e h).2
  refine ⟨?_, exprB_isExpr hb⟩
  unfold listed at hb ⊢
  cases ho : ofString (e.2.get s) with
  | ok t => rfl
  | error x => rw [ho] at hb; simp [exprB] at hb

/-- **C214.** `Dimension(d).quantities(system)` has exactly the known quantities whose listed dimension in the system means
the same as `d`. -/
theorem c214_quantities (s : System) (d : List Term) (hd : IsExpr d) :
    ∃ qs, quantitiesOf canonicalDimensions s d = .ok qs ∧
      ∀ q, q ∈ qs ↔ ∃ e ∈ canonicalDimensions, e.1 = q ∧ SameMeaning d (listed s e) :=
  c214_generic canonicalDimensions s d hd (listed s) (fun _ he => listed_spec he)

/-- **C214.** Each quantity is among those with its own dimension. -/
theorem c214_own (s : System) (e : Str × PerSystem Str) (he : e ∈ canonicalDimensions) :
    ∃ d qs, ofString (e.2.get s) = .ok d ∧ quantitiesOf canonicalDimensions s d = .ok qs ∧ e.1 ∈ qs := by
  obtain ⟨h1, h2⟩ := listed_spec (s := s) he
  obtain ⟨qs, h3, h4⟩ := c214_quantities s _ h2
  exact ⟨_, qs, h1, h3, (h4 _).2 ⟨e, he, rfl, fun _ => rfl⟩⟩

/-- The energy-like quantities, found with a dimension that is written in another order. -/
example : quantitiesOf canonicalDimensions .mks [⟨1, c!"M", 1⟩, ⟨1, c!"T", -2⟩, ⟨1, c!"L", 2⟩]
    = quantitiesOf canonicalDimensions .mks [⟨1, c!"L", 2⟩, ⟨1, c!"M", 1⟩, ⟨1, c!"T", -2⟩] := by
  decide +kernel

example : (quantitiesOf canonicalDimensions .mks [⟨1, c!"L", 2⟩, ⟨1, c!"M", 1⟩, ⟨1, c!"T", -2⟩]).map
    (fun qs => (c!"energy" ∈ qs : Bool)) = .ok true
    ∧ (quantitiesOf canonicalDimensions .mks [⟨1, c!"L", 2⟩, ⟨1, c!"M", 1⟩, ⟨1, c!"T", -2⟩]).map
    (fun qs => (c!"force" ∈ qs : Bool)) = .ok false := by
  decide +kernel

/-! ## C215: dimensions by system -/

/-- The argument as an expression; `none` if it is `None` or empty. -/
def Means (a : Arg) (d : Option (List Term)) : Prop :=
  (a.getD [] = [] ∧ d = none) ∨ (∃ s e, a = some s ∧ s ≠ [] ∧ ofString s = .ok e ∧ d = some e)

theorem dimensionOr_spec {default d : Option (List Term)} {a : Arg} (h : Means a d) :
    dimensionOr default a = .ok (d.or default) := by
  unfold dimensionOr
  rcases h with ⟨h, rfl⟩ | ⟨s, e, rfl, hs, he, rfl⟩
  · cases a with
    | none => rfl
    | some s => simp only [Option.getD_some] at h; subst h; rfl
  · simp only [if_neg hs, he]; rfl

theorem keys_map {α : Type _} (f : Str → α → Option (List Term)) (l : List (Str × α)) :
    Dict.keys (l.map (fun p => (p.1, f p.1 p.2))) = l.map (·.1) := by
  simp [Dict.keys]

/-- The dictionary that `Dimensions` creates. -/
theorem dimensionsInit_eq (common : Arg) (systems : List (Str × Arg)) (c : Option (List Term)) (hc : Means common c)
    (f : Str × Arg → Option (List Term)) (hf : ∀ p ∈ systems, Means p.2 (f p)) :
    dimensionsInit common systems =
      if ((Dict.update (systemNames.map (fun s => (s, none)) : Dict Str (Option (List Term)))
        (systems.map (fun p => (p.1, (f p).or c)))).values.any (·.isSome)) = true
      then .ok (Dict.update (systemNames.map (fun s => (s, none)) : Dict Str (Option (List Term)))
        (systems.map (fun p => (p.1, (f p).or c))))
      else .error .typeError := by
  unfold dimensionsInit
  rw [dimensionOr_spec hc]
  simp only [bind, Except.bind, Option.or_none]
  rw [mapM_ok (g := fun p => (p.1, (f p).or c))]
  · rfl
  · intro p hp
    rw [dimensionOr_spec (hf p hp)]
    rfl

/-- **C215 (partial).** The dimension for a system that is named in the call is the given one, or the common one if that is
`None` or empty; names are looked up without regard to case. For a system that is not named it is `None`, where the claim
says that it is the common one. -/
theorem c215_partial (common : Arg) (systems : List (Str × Arg)) (hn : (systems.map (·.1)).Nodup)
    (c : Option (List Term)) (hc : Means common c) (f : Str × Arg → Option (List Term))
    (hf : ∀ p ∈ systems, Means p.2 (f p)) (p₀ : Str × Arg) (h₀ : p₀ ∈ systems) (hs : ((f p₀).or c).isSome) :
    ∃ d, dimensionsInit common systems = .ok d ∧
      (∀ p ∈ systems, ∀ key, lower key = p.1 → dimensionsGet d key = .ok ((f p).or c)) ∧
      (∀ key, lower key ∉ systems.map (·.1) → dimensionsGet d key =
        if lower key ∈ systemNames then .ok none else .error .keyError) := by
  have hget : ∀ k, (Dict.update (systemNames.map (fun s => (s, none)) : Dict Str (Option (List Term)))
        (systems.map (fun p => (p.1, (f p).or c)))).get? k
      = (Dict.get? (systems.map (fun p => (p.1, (f p).or c))) k).or
        (Dict.get? (systemNames.map (fun s => (s, (none : Option (List Term))))) k) := by
    intro k
    rw [Dict.get?_update]
    congr 1
    have hnd : (Dict.keys (systems.map (fun p => (p.1, (f p).or c)))).Nodup := by
      simpa [Dict.keys, Function.comp_def] using hn
    have hnd' : (Dict.keys (systems.map (fun p => (p.1, (f p).or c))).reverse).Nodup := by
      simpa [Dict.keys, List.map_reverse, Function.comp_def] using hn
    ext v
    rw [Dict.get?_eq_some_iff hnd', Dict.get?_eq_some_iff hnd, List.mem_reverse]
  have hmem : ∀ p ∈ systems, Dict.get? (systems.map (fun p => (p.1, (f p).or c))) p.1 = some ((f p).or c) := by
    intro p hp
    have hnd : (Dict.keys (systems.map (fun p => (p.1, (f p).or c)))).Nodup := by
      simpa [Dict.keys, Function.comp_def] using hn
    rw [Dict.get?_eq_some_iff hnd]
    exact List.mem_map.2 ⟨p, hp, rfl⟩
  rw [dimensionsInit_eq common systems c hc f hf, if_pos]
  · refine ⟨_, rfl, ?_, ?_⟩
    · intro p hp key hk
      unfold dimensionsGet
      rw [hget, hk, hmem p hp]
      rfl
    · intro key hk
      unfold dimensionsGet
      rw [hget]
      have hno : Dict.get? (systems.map (fun p => (p.1, (f p).or c))) (lower key) = none := by
        rw [Dict.get?_eq_none_iff]
        simpa [Dict.keys, Function.comp_def] using hk
      rw [hno, Option.none_or]
      by_cases hm : lower key ∈ systemNames
      · rw [if_pos hm]
        simp only [systemNames, List.mem_cons, List.not_mem_nil, or_false] at hm
        rcases hm with hm | hm <;> rw [hm] <;> rfl
      · rw [if_neg hm]
        have : Dict.get? (systemNames.map (fun s => (s, (none : Option (List Term))))) (lower key) = none := by
          rw [Dict.get?_eq_none_iff]
          simpa [Dict.keys, Function.comp_def] using hm
        rw [this]
        rfl
  · rw [List.any_eq_true]
    refine ⟨_, ?_, hs⟩
    have := hget p₀.1
    rw [hmem p₀ h₀, Option.some_or] at this
    exact List.mem_map.2 ⟨_, Dict.mem_of_get? this, rfl⟩

/-- **C215 (counterexample).** A common dimension alone is refused, contrary to the documentation; and it is not used for a
system that is not named in the call. -/
theorem c215_counterexample (common : Arg) (c : Option (List Term)) (hc : Means common c) :
    dimensionsInit common [] = .error .typeError ∧
      ∀ s e, s ≠ [] → ofString s = .ok e → ∃ d, dimensionsInit common [(c!"mks", some s)] = .ok d
        ∧ dimensionsGet d c!"mks" = .ok (some e) ∧ dimensionsGet d c!"cgs" = .ok none := by
  constructor
  · rw [dimensionsInit_eq common [] c hc (fun _ => none) (by simp)]
    rfl
  · intro s e hs he
    obtain ⟨d, h1, h2, h3⟩ := c215_partial common [(c!"mks", some s)] (by simp) c hc (fun _ => some e)
      (by intro p hp; simp at hp; subst hp; exact Or.inr ⟨s, e, rfl, hs, he, rfl⟩) (c!"mks", some s) (by simp) rfl
    refine ⟨d, h1, ?_, ?_⟩
    · exact h2 (c!"mks", some s) (by simp) c!"mks" (show lower c!"mks" = c!"mks" by decide +kernel)
    · rw [h3 c!"cgs" (show lower c!"cgs" ∉ [c!"mks"] by decide +kernel)]
      rfl

/-- Current, with the Gaussian dimension given and the common one for `mks`, asked for in capitals. -/
example : (dimensionsInit (some c!"I") [(c!"mks", none), (c!"cgs", some c!"M T^-2")]
    >>= fun d => do return (← dimensionsGet d c!"MKS", ← dimensionsGet d c!"cgs"))
    = .ok (some [⟨1, c!"I", 1⟩], some [⟨1, c!"M", 1⟩, ⟨1, c!"T", -2⟩]) := by decide +kernel

/-! ## C216: one object for each quantity and each system -/

/-- What holds of the instances at any time. -/
structure Consistent (c : Instances) : Prop where
  names : ∀ k o, c.known.get? k = some o → o.name = k
  ids : ∀ k o, c.known.get? k = some o → o.id < c.count
  distinct : ∀ k k' o o', c.known.get? k = some o → c.known.get? k' = some o' → o.id = o'.id → k = k'

theorem empty_consistent : Consistent .empty := ⟨by simp [Instances.empty], by simp [Instances.empty], by simp [Instances.empty]⟩

theorem getInstance_consistent (valid : Str → Res Unit) {c : Instances} (hc : Consistent c) (arg : Str) :
    Consistent (getInstance valid c arg).1 := by
  unfold getInstance
  simp only
  cases hk : c.known.get? (lower arg) with
  | some o => exact hc
  | none =>
    cases hv : valid (lower arg) with
    | error e => exact hc
    | ok _ =>
      refine ⟨?_, ?_, ?_⟩
      · intro k o h
        simp only [Dict.get?_set] at h
        split at h
        · next hkk => injection h with h; subst h; exact hkk
        · exact hc.names k o h
      · intro k o h
        simp only [Dict.get?_set] at h
        split at h
        · injection h with h; subst h; exact Nat.lt_succ_self _
        · exact Nat.lt_succ_of_lt (hc.ids k o h)
      · intro k k' o o' h h' he
        simp only [Dict.get?_set] at h h'
        split at h <;> split at h'
        · next h1 h2 => rw [← h1, ← h2]
        · injection h with h; subst h
          have := hc.ids k' o' h'
          simp only at he; omega
        · injection h' with h'; subst h'
          have := hc.ids k o h
          simp only at he; omega
        · exact hc.distinct k k' o o' h h' he

theorem after_consistent (valid : Str → Res Unit) : ∀ (h : List Str) {c : Instances}, Consistent c →
    Consistent (after valid c h)
  | [], _, hc => hc
  | a :: h, _, hc => after_consistent valid h (getInstance_consistent valid hc a)

/-- The object of a name stays. -/
theorem getInstance_keeps (valid : Str → Res Unit) {c : Instances} {k : Str} {o : Object} (h : c.known.get? k = some o)
    (arg : Str) : (getInstance valid c arg).1.known.get? k = some o := by
  unfold getInstance
  simp only
  cases hk : c.known.get? (lower arg) with
  | some o' => exact h
  | none =>
    cases hv : valid (lower arg) with
    | error e => exact h
    | ok _ =>
      have hne : lower arg ≠ k := by rintro rfl; rw [hk] at h; cases h
      simp only [Dict.get?_set, if_neg hne]
      exact h

theorem after_keeps (valid : Str → Res Unit) : ∀ (hs : List Str) {c : Instances} {k : Str} {o : Object},
    c.known.get? k = some o → (after valid c hs).known.get? k = some o
  | [], _, _, _, h => h
  | a :: hs, _, _, _, h => after_keeps valid hs (getInstance_keeps valid h a)

theorem getInstance_known (valid : Str → Res Unit) {c : Instances} {arg : Str} {o : Object}
    (h : (getInstance valid c arg).2 = .ok o) : (getInstance valid c arg).1.known.get? (lower arg) = some o := by
  unfold getInstance at h ⊢
  simp only at h ⊢
  cases hk : c.known.get? (lower arg) with
  | some o' =>
    rw [hk] at h
    injection h with h
    rw [← h]
    exact hk
  | none =>
    rw [hk] at h
    cases hv : valid (lower arg) with
    | error e => rw [hv] at h; cases h
    | ok _ =>
      rw [hv] at h
      injection h with h
      rw [← h]
      simp

theorem getInstance_get {valid : Str → Res Unit} {c : Instances} {arg : Str} {o : Object}
    (h : c.known.get? (lower arg) = some o) : (getInstance valid c arg).2 = .ok o := by
  unfold getInstance
  simp only [h]

theorem after_append (valid : Str → Res Unit) (c : Instances) (h k : List Str) :
    after valid c (h ++ k) = after valid (after valid c h) k := by simp [after, List.foldl_append]

/-- **C216.** At any time, a call with the name of a known quantity (or system) gives an object with that name in lower
case, and a call with another name the exception of the lookup. -/
theorem c216_name (valid : Str → Res Unit) (hist : List Str) (arg : Str) :
    (∀ u, valid (lower arg) = .ok u → ∃ o, (getInstance valid (after valid .empty hist) arg).2 = .ok o ∧ o.name = lower arg) ∧
      (∀ e, valid (lower arg) = .error e → (getInstance valid (after valid .empty hist) arg).2 = .error e) := by
  have hc := after_consistent valid hist empty_consistent
  have hvalid : ∀ k o, (after valid .empty hist).known.get? k = some o → ∃ u, valid k = .ok u := by
    suffices H : ∀ (hs : List Str) (c : Instances), (∀ k o, c.known.get? k = some o → ∃ u, valid k = .ok u) →
        ∀ k o, (after valid c hs).known.get? k = some o → ∃ u, valid k = .ok u from
      H hist .empty (by simp [Instances.empty])
    intro hs
    induction hs with
    | nil => exact fun c h => h
    | cons a hs ih =>
      intro c h
      refine ih _ ?_
      intro k o hk
      unfold getInstance at hk
      simp only at hk
      cases h1 : c.known.get? (lower a) with
      | some o' => rw [h1] at hk; exact h k o hk
      | none =>
        rw [h1] at hk
        cases h2 : valid (lower a) with
        | error e => rw [h2] at hk; exact h k o hk
        | ok u =>
          rw [h2] at hk
          simp only [Dict.get?_set] at hk
          split at hk
          · next he => exact ⟨u, he ▸ h2⟩
          · exact h k o hk
  constructor
  · intro u hu
    unfold getInstance
    simp only
    cases hk : (after valid .empty hist).known.get? (lower arg) with
    | some o => exact ⟨o, rfl, hc.names _ _ hk⟩
    | none => simp only [hu]; exact ⟨_, rfl, rfl⟩
  · intro e he
    unfold getInstance
    simp only
    cases hk : (after valid .empty hist).known.get? (lower arg) with
    | some o =>
      obtain ⟨u, hu⟩ := hvalid _ _ hk
      rw [he] at hu; cases hu
    | none => simp only [he]

/-- **C216.** Two calls, at any times, give the same object if and only if the names agree up to case. -/
theorem c216_same (valid : Str → Res Unit) (h₁ h₂ : List Str) (a b : Str) (o p : Object)
    (ho : (getInstance valid (after valid .empty h₁) a).2 = .ok o)
    (hp : (getInstance valid (after valid .empty (h₁ ++ a :: h₂)) b).2 = .ok p) :
    o.id = p.id ↔ lower a = lower b := by
  have hc := after_consistent valid h₁ empty_consistent
  have hk := getInstance_known valid ho
  have ha : after valid .empty (h₁ ++ a :: h₂) = after valid (getInstance valid (after valid .empty h₁) a).1 h₂ := by
    rw [after_append]; rfl
  have hk' := after_keeps valid h₂ hk
  rw [← ha] at hk'
  have hc' := after_consistent valid (h₁ ++ a :: h₂) empty_consistent
  have hb := getInstance_known valid hp
  have hkb := getInstance_keeps valid hk' b
  have hcb := getInstance_consistent valid hc' b
  constructor
  · intro he
    exact hcb.distinct _ _ _ _ hkb hb he
  · intro he
    rw [he] at hkb
    rw [hkb] at hb
    injection hb with hb
    rw [hb]

/-- **C216.** A quantity compares equal to a string exactly if the string is its name, up to case; and to another quantity,
created later, exactly if it has the same name. The same holds for two systems. -/
theorem c216_equal (valid : Str → Res Unit) (h₁ h₂ : List Str) (a b : Str) (o p : Object)
    (ho : (getInstance valid (after valid .empty h₁) a).2 = .ok o)
    (hp : (getInstance valid (after valid .empty (h₁ ++ a :: h₂)) b).2 = .ok p) :
    (∀ s, quantityEq o (.text s) = true ↔ lower s = lower a) ∧
      (quantityEq o (.object p) = true ↔ lower a = lower b) ∧ (systemEq o (.object p) = true ↔ lower a = lower b) := by
  have hc := getInstance_consistent valid (after_consistent valid h₁ empty_consistent) a
  have hn : o.name = lower a := hc.names _ _ (getInstance_known valid ho)
  have hc' := getInstance_consistent valid (after_consistent valid (h₁ ++ a :: h₂) empty_consistent) b
  have hn' : p.name = lower b := hc'.names _ _ (getInstance_known valid hp)
  refine ⟨fun s => by simp [quantityEq, hn], ?_, ?_⟩
  · have := c216_same valid h₁ h₂ a b o p ho hp
    simp only [quantityEq, decide_eq_true_eq]
    rw [← this]
    exact eq_comm
  · simp only [systemEq, decide_eq_true_eq, hn, hn']
    exact eq_comm

theorem toLower_toLower (c : Char) : c.toLower.toLower = c.toLower := by
  by_cases h : c.val ≥ 'A'.val ∧ c.val ≤ 'Z'.val
  · have hv : c.toLower.val = c.val + ('a'.val - 'A'.val) := by
      unfold Char.toLower
      rw [dif_pos h]
    have hno : ¬ (c.toLower.val ≥ 'A'.val ∧ c.toLower.val ≤ 'Z'.val) := by
      rw [hv]
      have h1 : 65 ≤ c.val.toNat := h.1
      have h2 : c.val.toNat ≤ 90 := h.2
      have h3 : (c.val + ('a'.val - 'A'.val)).toNat = c.val.toNat + 32 := by
        rw [UInt32.toNat_add]
        have : (('a'.val - 'A'.val : UInt32)).toNat = 32 := by decide
        rw [this]
        omega
      rintro ⟨_, h5⟩
      have h6 : (c.val + ('a'.val - 'A'.val)).toNat ≤ 90 := h5
      omega
    generalize c.toLower = d at hno
    unfold Char.toLower
    rw [dif_neg hno]
  · have hc : c.toLower = c := by
      unfold Char.toLower
      rw [dif_neg h]
    rw [hc, hc]

/-- **C216 (counterexample).** Unlike a quantity, a system does not compare equal to its name. -/
theorem c216_counterexample (valid : Str → Res Unit) (hist : List Str) (a : Str) (o : Object)
    (ho : (getInstance valid (after valid .empty hist) a).2 = .ok o) :
    quantityEq o (.text o.name) = true ∧ systemEq o (.text o.name) = false := by
  have hc := getInstance_consistent valid (after_consistent valid hist empty_consistent) a
  have hn : o.name = lower a := hc.names _ _ (getInstance_known valid ho)
  refine ⟨?_, rfl⟩
  rw [hn]
  have : ∀ s : Str, lower (lower s) = lower s := by
    intro s
    unfold lower
    rw [List.map_map]
    apply List.map_congr_left
    intro c _
    exact toLower_toLower c
  simp [quantityEq, hn, this]

/-- `Energy` and `ENERGY` are one object, `work` is another; `heat death` is not known. -/
example : let valid : Str → Res Unit := fun q => if q ∈ [c!"energy", c!"work"] then .ok () else .error .keyError
    (getInstance valid (after valid .empty []) c!"Energy").2 = .ok ⟨0, c!"energy"⟩
    ∧ (getInstance valid (after valid .empty [c!"Energy", c!"work"]) c!"ENERGY").2 = .ok ⟨0, c!"energy"⟩
    ∧ (getInstance valid (after valid .empty [c!"Energy", c!"heat death"]) c!"work").2 = .ok ⟨1, c!"work"⟩
    ∧ (getInstance valid (after valid .empty [c!"Energy"]) c!"heat death").2 = .error .keyError := by decide +kernel

end Verif.Reductions
