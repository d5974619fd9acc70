import Verif.Reductions.Checks

/-!
# The reduction of named units (C212), and of expressions with the actual tables (C213)
-/

set_option linter.unusedSimpArgs false

namespace Verif.Reductions

open Verif.Py Verif.Symbolic Verif.Metric Verif.Systems

/-! ## Prefixes -/

theorem exprB_spec {e : List Term} (h : exprB e = true) : IsExpr e ∧ Printable e ∧ totalCoef e = 1 := by
  simp only [exprB, Bool.and_eq_true, decide_eq_true_eq, List.all_eq_true, Bool.or_eq_true] at h
  obtain ⟨⟨h1, h2⟩, h3⟩ := h
  refine ⟨⟨e, h1, ?_, ?_⟩, ?_, ?_⟩
  · intro t ht
    obtain ⟨⟨⟨⟨a, b⟩, c⟩, _⟩, _⟩ := h2 t ht
    exact ⟨by rw [a]; exact one_ne_zero, b, c⟩
  · cases hr : reduce e with
    | ok r => rw [hr] at h3; simp only [decide_eq_true_eq] at h3; rw [h3]
    | error _ => rw [hr] at h3; cases h3
  · intro t ht
    obtain ⟨⟨⟨⟨a, b⟩, c⟩, d⟩, f⟩ := h2 t ht
    exact ⟨by rw [a]; exact ⟨by decide, isDouble_one⟩, d, f.imp id validName_of⟩
  · have : ∀ t ∈ e, t.coef = 1 := fun t ht => (h2 t ht).1.1.1.1
    clear h1 h2 h3
    induction e with
    | nil => rfl
    | cons t e ih =>
      rw [totalCoef_cons, this t (by simp), ih (fun u hu => this u (by simp [hu]))]; simp

theorem powersB_spec {d : Definition} {e : List Term} (h : powersB d e = true) :
    ∀ x, x ≠ one → totalExp e x = d.exp x := by
  simp only [powersB, Bool.and_eq_true, List.all_eq_true, Bool.or_eq_true, decide_eq_true_eq, beq_iff_eq,
    List.mem_append, List.mem_map] at h
  intro x hx
  by_cases h1 : ∃ t ∈ e, t.base = x
  · exact (h.1 x (Or.inl h1)).resolve_left hx
  · by_cases h2 : ∃ p ∈ d.powers, p.1 = x
    · exact (h.1 x (Or.inr h2)).resolve_left hx
    · push Not at h1 h2
      rw [totalExp_of_not_mem h1]
      unfold Definition.exp
      rw [List.filter_eq_nil_iff.2 (fun p hp => by simpa using h2 p hp)]
      rfl

theorem powersB_one {d : Definition} {e : List Term} (h : powersB d e = true) : d.exp one = 0 := by
  simp only [powersB, Bool.and_eq_true, List.all_eq_true, decide_eq_true_eq] at h
  unfold Definition.exp
  rw [List.filter_eq_nil_iff.2 (fun p hp => by simpa using h.2 p hp)]
  rfl

/-- The scales that are printed as whole numbers. -/
theorem scale_texts : ∀ k < 16, (scaleStr (10 ^ k) >>= ofString) = .ok [⟨10 ^ k, one, 1⟩] := by decide +kernel

theorem reads_scale {k : Nat} (hk : k < 16) : Reads scaleStr (10 ^ k) := by
  have h := scale_texts k hk
  cases hs : scaleStr (10 ^ k) with
  | error e => rw [hs] at h; cases h
  | ok t => rw [hs] at h; exact ⟨t, hs, h⟩

theorem isDefinedIn_eq {b : Book} {s : System} {u : NamedUnit} (hn : nameCheck b s u.base = true) (hp : u.pre ∈ prefixes) :
    isDefinedIn b s u = (canonicalUnit b s (plain u.base)).map (fun c => sameBase u.base (b.ident c)) := by
  unfold nameCheck at hn
  have hc : canonicalUnit b s u = canonicalUnit b s (plain u.base) := rfl
  unfold isDefinedIn isFundamentalIn
  rw [hc]
  cases h : canonicalUnit b s (plain u.base) with
  | error e => rfl
  | ok c =>
    rw [h] at hn
    simp only [List.all_eq_true] at hn
    have := hn u.pre hp
    simp only [bind, Except.bind, pure, Except.pure, Except.map]
    by_cases hs : u.symbol = c ∨ u.name = c
    · rw [if_pos (by simpa [NamedUnit.symbol, NamedUnit.name] using hs)] at this
      cases hi : b.ident c with
      | error e => rw [hi] at this; cases this
      | ok n =>
        rw [hi] at this
        simp only [decide_eq_true_eq] at this
        subst this
        simp [hs, sameBase]
    · simp [hs]

theorem definedIn_eq {b : Book} {u : NamedUnit} (hm : nameCheck b .mks u.base = true) (hc : nameCheck b .cgs u.base = true)
    (hp : u.pre ∈ prefixes) (h0 : (plain u.base).pre ∈ prefixes) : definedIn b u = definedIn b (plain u.base) := by
  unfold definedIn
  rw [isDefinedIn_eq hm hp, isDefinedIn_eq hc hp, isDefinedIn_eq (u := plain u.base) hm h0,
    isDefinedIn_eq (u := plain u.base) hc h0]
  rfl

theorem dimensionsOf_eq {b : Book} {u : NamedUnit} (hm : nameCheck b .mks u.base = true)
    (hc : nameCheck b .cgs u.base = true) (hp : u.pre ∈ prefixes) (h0 : (plain u.base).pre ∈ prefixes) :
    dimensionsOf b u = dimensionsOf b (plain u.base) := by
  unfold dimensionsOf
  rw [definedIn_eq hm hc hp h0]
  rfl

theorem plain_mem (u : BaseUnit) : (plain u).pre ∈ prefixes := by
  show (⟨[], [], 1⟩ : Prefix) ∈ prefixes
  decide +kernel

theorem mkReduction_eq {ts e : List Term} (x : Rat) (h : ofTerms ts = .ok e) : mkReduction ts x = init scaleStr ts x := by
  unfold mkReduction init scaleBy
  rw [h]
  cases scaleStr x with
  | error e => rfl
  | ok t => cases h' : ofString t <;> simp [bind, Except.bind, h']

theorem init_congr {num : Rat → Res Str} {ts ts' : List Term} (x : Rat) (h : ofTerms ts = ofTerms ts') :
    init num ts x = init num ts' x := by unfold init; rw [h]

theorem mkReduction_scale {ts : List Term} {x : Rat} {r : Reduction} (h : mkReduction ts x = .ok r) : r.scale = x := by
  unfold mkReduction at h
  cases h1 : scaleStr x with
  | error e => rw [h1] at h; cases h
  | ok t =>
    cases h2 : ofString t with
    | error e => simp [bind, Except.bind, h1, h2] at h
    | ok a =>
      cases h3 : ofTerms ts with
      | error e => simp [bind, Except.bind, h1, h2, h3] at h
      | ok e =>
        cases h4 : exprMul a e with
        | error e => simp [bind, Except.bind, h1, h2, h3, h4] at h
        | ok m =>
          simp only [bind, Except.bind, h1, h2, h3, h4, pure, Except.pure] at h
          injection h with h
          rw [← h]

/-- The powers of ten that are floats. -/
theorem plain_ten {k : Nat} (hk : k < 23) : Plain (10 ^ k) := by
  have h : ∀ k < 23, Plain (10 ^ k) := by decide +kernel
  exact h k hk

/-- A reduction with the terms of a checked row agrees with the definition. -/
theorem mkReduction_ok {ts e : List Term} {d : Definition} {x : Rat} (ht : ofTerms ts = .ok e)
    (he : exprB e = true) (hd : powersB d e = true) (hx : ∃ k < 16, x = 10 ^ k) :
    ∃ r, mkReduction ts x = .ok r ∧ r.scale = x ∧ (∀ y, totalExp r.units y = d.exp y) ∧ printed r = x ∧ Proper r := by
  obtain ⟨k, hk, rfl⟩ := hx
  obtain ⟨h1, h2, h3⟩ := exprB_spec he
  obtain ⟨q, q1, q2, q3, q4, q5⟩ := c211_init scaleStr e (10 ^ k) (by positivity) (reads_scale hk) h1 h2
    (by rw [h3, mul_one]; exact plain_ten (by omega))
  refine ⟨q, ?_, q3, ?_, by rw [q5, h3, mul_one], q2⟩
  · rw [mkReduction_eq _ ht, init_congr (ts' := e) _ (by rw [ht, ofTerms_eq h1 h2]), q1]
  intro y
  by_cases hy : y = one
  · subst hy
    rw [powersB_one hd, q4]
    exact totalExp_of_not_mem (fun t ht => by simpa using (List.mem_filter.1 ht).2)
  · rw [totalExp_units _ hy, ← powersB_spec hd y hy]
    rw [← totalExp_units _ hy, q4]
    have := totalExp_units ⟨e, 1⟩ hy
    simpa [Reduction.units] using this

theorem mkReduction_agrees {ts e : List Term} {d : Definition} {x : Rat} {r : Reduction} (ht : ofTerms ts = .ok e)
    (he : exprB e = true) (hd : powersB d e = true) (hx : ∃ k < 16, x = 10 ^ k) (h : mkReduction ts x = .ok r) :
    r.scale = x ∧ (∀ y, totalExp r.units y = d.exp y) ∧ printed r = x ∧ Proper r := by
  obtain ⟨q, q1, q2⟩ := mkReduction_ok ht he hd hx
  rw [h] at q1
  injection q1 with q1
  rw [q1]
  exact q2

/-- What a checked row says. -/
theorem rowCheck_spec {b : Book} {s : System} {u : BaseUnit} (h : rowCheck b s u = true) {ts : List Term} {v : Rat}
    (hr : rowTerms b s u = .ok (some (ts, v))) : v ≠ 0 ∧ ∃ e d, ofTerms ts = .ok e ∧ exprB e = true ∧ d ∈ definitions s
      ∧ d.symbol = u.symbol ∧ d.value = v ∧ powersB d e = true := by
  unfold rowCheck at h
  rw [hr] at h
  simp only [Bool.and_eq_true, decide_eq_true_eq] at h
  obtain ⟨h1, h2⟩ := h
  refine ⟨by simpa using h1, ?_⟩
  cases ht : ofTerms ts with
  | error e => rw [ht] at h2; cases h2
  | ok e =>
    rw [ht] at h2
    simp only [Bool.and_eq_true, List.any_eq_true, decide_eq_true_eq, beq_iff_eq] at h2
    obtain ⟨he, d, hd, ⟨ha, hb⟩, hc⟩ := h2
    exact ⟨e, d, rfl, he, hd, ha, hb, hc⟩

theorem reduceIn_agrees {b : Book} {s : System} {u : NamedUnit} {r : Reduction} (hm : nameCheck b .mks u.base = true)
    (hc : nameCheck b .cgs u.base = true) (hrow : rowCheck b s u.base = true) (hp : u.pre ∈ prefixes)
    (h : reduceIn b s u = .ok (some r)) (hk : ∃ k < 16, r.scale = 10 ^ k) :
    ∃ d ∈ definitions s, d.symbol = u.base.symbol ∧ Agrees d u.pre.factor r ∧ printed r = r.scale ∧ Proper r := by
  have hs : nameCheck b s u.base = true := by cases s <;> assumption
  have h0 := plain_mem u.base
  unfold reduceIn at h
  rw [isDefinedIn_eq hs hp, dimensionsOf_eq hm hc hp h0] at h
  have hcan : canonicalUnit b s u = canonicalUnit b s (plain u.base) := rfl
  rw [hcan] at h
  have hrt : rowTerms b s u.base = rowTerms b s u.base := rfl
  conv_rhs at hrt => unfold rowTerms
  rw [show isDefinedIn b s (plain u.base) = (canonicalUnit b s (plain u.base)).map (fun c => sameBase u.base (b.ident c))
    from isDefinedIn_eq (u := plain u.base) hs h0] at hrt
  have hns := hs
  unfold nameCheck at hns
  cases hcn : canonicalUnit b s (plain u.base) with
  | error e => rw [hcn] at h; cases h
  | ok c =>
    rw [hcn] at h hrt hns
    simp only [bind, Except.bind, pure, Except.pure, Except.map] at h hrt hns
    by_cases hsb : sameBase u.base (b.ident c) = true
    · rw [if_pos hsb] at h
      rw [if_pos hsb] at hrt
      cases hd : dimensionsOf b (plain u.base) with
      | error e => rw [hd] at h; cases h
      | ok d =>
        rw [hd] at h hrt
        simp only at h hrt
        by_cases hl : (d.get s).length = 1
        · rw [if_pos hl] at h hrt
          cases hi : b.ident c with
          | error e => rw [hi] at hsb; cases hsb
          | ok n =>
            rw [hi] at h hrt hsb hns
            simp only [sameBase, decide_eq_true_eq] at h hrt hsb hns
            rw [if_pos hsb.symm] at hrt
            obtain ⟨hv, e, df, he1, he2, he3, he4, he5, he6⟩ := rowCheck_spec hrow hrt
            have hn0 : n.scale ≠ 0 := by intro h0; rw [h0] at hv; simp at hv
            by_cases hsym : u.symbol = c
            · rw [if_pos hsym] at h
              have hnu : n = u := by
                have := List.all_eq_true.1 hns u.pre hp
                rw [if_pos (by simpa [NamedUnit.symbol] using Or.inl hsym)] at this
                simpa using this
              rw [hsym] at h
              cases hmk : mkReduction [mkOperand 1 c 1] 1 with
              | error e => rw [hmk] at h; cases h
              | ok q =>
                rw [hmk] at h
                injection h with h
                injection h with h
                subst h
                obtain ⟨a1, a2, a3, a4⟩ := mkReduction_agrees he1 he2 he6 ⟨0, by decide, by norm_num⟩ hmk
                refine ⟨df, he3, he4, ⟨?_, a2⟩, by rw [a3, a1], a4⟩
                rw [a1, he5, hnu]
                have : u.scale ≠ 0 := hnu ▸ hn0
                exact (mul_one_div_cancel this).symm
            · rw [if_neg hsym] at h
              have hratio : ratio u n = .ok (u.scale / n.scale) := by
                unfold ratio
                by_cases hnu : n = u
                · rw [if_pos hnu, hnu]
                  have : u.scale ≠ 0 := hnu ▸ hn0
                  rw [div_self this]
                · rw [if_neg hnu, if_neg (by simpa using hsb.symm), if_neg hn0]
              rw [hratio] at h
              simp only at h
              cases hmk : mkReduction [mkOperand 1 c 1] (u.scale / n.scale) with
              | error e => rw [hmk] at h; cases h
              | ok q =>
                rw [hmk] at h
                injection h with h
                injection h with h
                subst h
                have hq : q.scale = u.scale / n.scale := mkReduction_scale hmk
                rw [hq] at hk
                obtain ⟨a1, a2, a3, a4⟩ := mkReduction_agrees he1 he2 he6 hk hmk
                refine ⟨df, he3, he4, ⟨?_, a2⟩, by rw [a3, a1], a4⟩
                rw [a1, he5, div_eq_mul_one_div]
                rfl
        · rw [if_neg hl] at h hrt
          cases hib : inBaseUnits s (d.get s) with
          | error e => rw [hib] at h; cases h
          | ok ts =>
            rw [hib] at h hrt
            simp only at h hrt
            obtain ⟨hv, e, df, he1, he2, he3, he4, he5, he6⟩ := rowCheck_spec hrow hrt
            cases hmk : mkReduction ts u.scale with
            | error e => rw [hmk] at h; cases h
            | ok q =>
              rw [hmk] at h
              injection h with h
              injection h with h
              subst h
              have hq : q.scale = u.scale := mkReduction_scale hmk
              rw [hq] at hk
              obtain ⟨a1, a2, a3, a4⟩ := mkReduction_agrees he1 he2 he6 hk hmk
              refine ⟨df, he3, he4, ⟨?_, a2⟩, by rw [a3, a1], a4⟩
              rw [a1, he5, mul_one]
              rfl
    · rw [if_neg hsb] at h
      cases h

/-- A unit with a definition can be reduced. -/
theorem reduceIn_ok {b : Book} {s : System} {u : NamedUnit} (hm : nameCheck b .mks u.base = true)
    (hc : nameCheck b .cgs u.base = true) (hrow : rowCheck b s u.base = true) (hp : u.pre ∈ prefixes) {d : Definition}
    (hd : d ∈ definitions s) (hsym : d.symbol = u.base.symbol) (hone : ∀ d' ∈ definitions s, d'.symbol = d.symbol → d' = d)
    (hk : ∃ k < 16, u.pre.factor * d.value = 10 ^ k) :
    ∃ r, reduceIn b s u = .ok (some r) ∧ Agrees d u.pre.factor r ∧ printed r = r.scale ∧ Proper r := by
  have hs : nameCheck b s u.base = true := by cases s <;> assumption
  have h0 := plain_mem u.base
  obtain ⟨ts, v, hr⟩ : ∃ ts v, rowTerms b s u.base = .ok (some (ts, v)) := by
    unfold rowCheck at hrow
    split at hrow
    · next ts v h => exact ⟨ts, v, h⟩
    · rw [List.all_eq_true] at hrow
      have := hrow d hd
      simp [hsym] at this
  obtain ⟨hv, e, df, he1, he2, he3, he4, he5, he6⟩ := rowCheck_spec hrow hr
  have : df = d := hone df he3 (by rw [he4, hsym])
  subst this
  have hcan : canonicalUnit b s u = canonicalUnit b s (plain u.base) := rfl
  have hns := hs
  unfold nameCheck at hns
  unfold reduceIn
  rw [isDefinedIn_eq hs hp, dimensionsOf_eq hm hc hp h0, hcan]
  unfold rowTerms at hr
  rw [show isDefinedIn b s (plain u.base) = (canonicalUnit b s (plain u.base)).map (fun c => sameBase u.base (b.ident c))
    from isDefinedIn_eq (u := plain u.base) hs h0] at hr
  cases hcn : canonicalUnit b s (plain u.base) with
  | error e => rw [hcn] at hr; cases hr
  | ok c =>
    rw [hcn] at hr hns
    simp only [bind, Except.bind, pure, Except.pure, Except.map] at hr hns ⊢
    by_cases hsb : sameBase u.base (b.ident c) = true
    · rw [if_pos hsb] at hr ⊢
      cases hdim : dimensionsOf b (plain u.base) with
      | error e => rw [hdim] at hr; cases hr
      | ok dims =>
        rw [hdim] at hr
        simp only at hr ⊢
        by_cases hl : (dims.get s).length = 1
        · rw [if_pos hl] at hr ⊢
          cases hi : b.ident c with
          | error e => rw [hi] at hsb; cases hsb
          | ok n =>
            rw [hi] at hr hsb hns
            simp only [sameBase, decide_eq_true_eq] at hr hsb hns ⊢
            rw [if_pos hsb.symm] at hr
            injection hr with hr
            injection hr with hr
            injection hr with hts hvv
            subst hts
            have hn0 : n.scale ≠ 0 := by intro h0; rw [← hvv, h0] at hv; simp at hv
            rw [he5, ← hvv] at hk
            by_cases hsy : u.symbol = c
            · rw [if_pos hsy, hsy]
              have hnu : n = u := by
                have := List.all_eq_true.1 hns u.pre hp
                rw [if_pos (by simpa [NamedUnit.symbol] using Or.inl hsy)] at this
                simpa using this
              obtain ⟨q, q1, a1, a2, a3, a4⟩ := mkReduction_ok he1 he2 he6 ⟨0, by decide, by norm_num⟩ (x := 1)
              rw [q1]
              refine ⟨q, rfl, ⟨?_, a2⟩, by rw [a3, a1], a4⟩
              rw [a1, he5, ← hvv, hnu]
              have : u.scale ≠ 0 := hnu ▸ hn0
              exact (mul_one_div_cancel this).symm
            · rw [if_neg hsy]
              have hratio : ratio u n = .ok (u.scale / n.scale) := by
                unfold ratio
                by_cases hnu : n = u
                · rw [if_pos hnu, hnu]
                  have : u.scale ≠ 0 := hnu ▸ hn0
                  rw [div_self this]
                · rw [if_neg hnu, if_neg (by simpa using hsb.symm), if_neg hn0]
              rw [hratio]
              simp only
              have hk' : ∃ k < 16, u.scale / n.scale = 10 ^ k := by rw [div_eq_mul_one_div]; exact hk
              obtain ⟨q, q1, a1, a2, a3, a4⟩ := mkReduction_ok he1 he2 he6 hk'
              rw [q1]
              refine ⟨q, rfl, ⟨?_, a2⟩, by rw [a3, a1], a4⟩
              rw [a1, he5, ← hvv, div_eq_mul_one_div]
              rfl
        · rw [if_neg hl] at hr ⊢
          cases hib : inBaseUnits s (dims.get s) with
          | error e => rw [hib] at hr; cases hr
          | ok ts' =>
            rw [hib] at hr
            simp only at hr ⊢
            injection hr with hr
            injection hr with hr
            injection hr with hts hvv
            subst hts
            rw [he5, ← hvv, mul_one] at hk
            obtain ⟨q, q1, a1, a2, a3, a4⟩ := mkReduction_ok he1 he2 he6 hk
            rw [show u.scale = u.pre.factor from rfl, q1]
            refine ⟨q, rfl, ⟨?_, a2⟩, by rw [a3, a1], a4⟩
            rw [a1, he5, ← hvv, mul_one]
    · rw [if_neg hsb] at hr
      cases hr

/-! ## C212 -/

theorem mem_allUnits {u : NamedUnit} (h : u ∈ allUnits) : u.pre ∈ prefixes ∧ u.base ∈ units := by
  unfold allUnits at h
  obtain ⟨p, hp, h⟩ := List.mem_flatMap.1 h
  obtain ⟨v, hv, rfl⟩ := List.mem_map.1 h
  exact ⟨hp, hv⟩

theorem one_definition : ∀ s ∈ [System.mks, System.cgs], ((definitions s).map (·.symbol)).Nodup := by decide +kernel

theorem definition_unique {s : System} {d d' : Definition} (h : d ∈ definitions s) (h' : d' ∈ definitions s)
    (he : d'.symbol = d.symbol) : d' = d :=
  List.inj_on_of_nodup_map (one_definition s (by cases s <;> simp)) h' h he

/-- **C212 (partial).** If `NamedUnit(u).reduce(system)` gives a reduction whose scale is a power of ten from 1 to 10^15,
its scale is the value of the unit, and its units are the powers of base units, in the definition of the unit. The ohm,
hertz, becquerel and curie are exceptions. -/
theorem c212_reduce_partial (s : System) (u : NamedUnit) (hu : u ∈ allUnits) (hx : u.base.symbol ∉ exceptions)
    (r : Reduction) (h : reduceIn actualBook s u = .ok (some r)) (hk : ∃ k < 16, r.scale = 10 ^ k) :
    ∃ d ∈ definitions s, d.symbol = u.base.symbol ∧ Agrees d u.pre.factor r := by
  rw [actualBook_eq] at h
  obtain ⟨hp, hb⟩ := mem_allUnits hu
  have hrow : rowCheck fastBook s u.base = true := by
    cases s
    · exact (rowCheck_all _ hb hx).1
    · exact (rowCheck_all _ hb hx).2
  obtain ⟨d, h1, h2, h3, _⟩ := reduceIn_agrees (nameCheck_all _ hb hx).1 (nameCheck_all _ hb hx).2 hrow hp h hk
  exact ⟨d, h1, h2, h3⟩

/-- **C212 (partial).** Conversely, each unit with a definition in the system can be reduced, with the same exceptions, if
the scale is a power of ten from 1 to 10^15; the printed expression has that scale. -/
theorem c212_defined_partial (s : System) (u : NamedUnit) (hu : u ∈ allUnits) (hx : u.base.symbol ∉ exceptions)
    (d : Definition) (hd : d ∈ definitions s) (hs : d.symbol = u.base.symbol)
    (hk : ∃ k < 16, u.pre.factor * d.value = 10 ^ k) :
    ∃ r, reduceIn actualBook s u = .ok (some r) ∧ Agrees d u.pre.factor r ∧ printed r = r.scale ∧ Proper r := by
  rw [actualBook_eq]
  obtain ⟨hp, hb⟩ := mem_allUnits hu
  have hrow : rowCheck fastBook s u.base = true := by
    cases s
    · exact (rowCheck_all _ hb hx).1
    · exact (rowCheck_all _ hb hx).2
  exact reduceIn_ok (nameCheck_all _ hb hx).1 (nameCheck_all _ hb hx).2 hrow hp hd hs
    (fun d' h' e => definition_unique hd h' e) hk

/-- The kilometre meets the hypotheses. -/
example : ∃ u ∈ allUnits, u.base.symbol ∉ exceptions ∧ ∃ d ∈ definitions .mks, d.symbol = u.base.symbol
    ∧ u.pre.factor * d.value = 10 ^ 3 := by
  have h : ∃ u ∈ allUnits, u.base.symbol = c!"m" ∧ u.pre.factor = 1000 := by decide +kernel
  obtain ⟨u, hu, hs, hf⟩ := h
  refine ⟨u, hu, by rw [hs]; decide +kernel, ⟨c!"m", 1, [(c!"m", 1)]⟩, by simp [definitions, siDefinitions], hs.symm, ?_⟩
  rw [hf]; norm_num

/-- The reduction of the unit with the given name: its scale and its units. -/
def reduced (b : Book) (s : System) (name : Str) : Res (Option (Rat × List Term)) := do
  return (← reduceIn b s (← b.ident name)).map (fun r => (r.scale, r.units))

/-- A kilojoule is 1000 m² kg s⁻². -/
example : reduced actualBook .mks c!"kJ"
    = .ok (some (1000, [⟨1, c!"m", 2⟩, ⟨1, c!"kg", 1⟩, ⟨1, c!"s", -2⟩])) := by
  rw [actualBook_eq]; decide +kernel

/-- **C212 (counterexample).** A micrometre reduces to units that include the elementary charge, since its scale is printed
as `1e-06` and read as a product; the ohm has the dimension of the volt; hertz are not reduced; the lux has no known
quantity. -/
theorem c212_counterexample :
    reduced actualBook .mks c!"μm" = .ok (some (1/1000000, [⟨1, c!"e", 1⟩, ⟨1, c!"m", 1⟩]))
    ∧ reduced actualBook .mks c!"Ω" = reduced actualBook .mks c!"V"
    ∧ reduced actualBook .mks c!"Hz" = .ok (some (1, [⟨1, c!"Hz", 1⟩]))
    ∧ reduced actualBook .mks c!"lx" = .error .keyError := by
  rw [actualBook_eq]; decide +kernel

/-! ## C213, with the actual tables -/

/-- The exponents in the definitions are small, and whole numbers or halves of them. -/
theorem definitions_small (s : System) : ∀ d ∈ definitions s, ∀ p ∈ d.powers, (d.exp p.1 * 2).den = 1 ∧ |d.exp p.1| ≤ 16 := by
  cases s <;> decide +kernel

theorem definition_small {s : System} {d : Definition} (hd : d ∈ definitions s) (x : Name) :
    (d.exp x * 2).den = 1 ∧ |d.exp x| ≤ 16 := by
  by_cases h : ∃ p ∈ d.powers, p.1 = x
  · obtain ⟨p, hp, rfl⟩ := h
    exact definitions_small s d hd p hp
  · push Not at h
    have : d.exp x = 0 := by
      unfold Definition.exp
      rw [List.filter_eq_nil_iff.2 (fun p hp => by simpa using h p hp)]
      rfl
    rw [this]
    exact ⟨by rw [zero_mul]; rfl, by norm_num⟩

/-- The powers of a reduction that agrees with a definition, and has a power of ten as its scale, are exact. -/
theorem floats_named {s : System} {d : Definition} (hd : d ∈ definitions s) {r : Reduction} (hp : Proper r)
    (ha : ∀ y, totalExp r.units y = d.exp y) {k n : Nat} (hr : printed r = 10 ^ k) (hkn : k * n < 23) (hn : n ≠ 0)
    (hb : n ≤ 2 ^ 40) : FloatPow r.terms n := by
  have hint : ∀ z : Rat, (z * 2).den = 1 → |z| ≤ 16 → IsDouble z ∧ IsDouble (z * n) := by
    intro z h1 h2
    obtain ⟨m, hm⟩ := (den_one_iff _).1 h1
    refine ⟨isDouble_half ⟨m, hm⟩ (h2.trans (by norm_num)),
      isDouble_half ⟨m * n, by push_cast; rw [← hm]; ring⟩ ?_⟩
    rw [abs_mul]
    calc |z| * |(n : Rat)| ≤ 16 * 2 ^ 40 := by
          refine mul_le_mul h2 ?_ (abs_nonneg _) (by norm_num)
          rw [abs_of_nonneg (by positivity)]; exact_mod_cast hb
      _ ≤ 2 ^ 52 := by norm_num
  have hone := hint 1 (by decide +kernel) (by norm_num)
  have hle : k < 23 := lt_of_le_of_lt (Nat.le_mul_of_pos_right k (Nat.pos_of_ne_zero hn)) hkn
  have hpow : ∀ z : Rat, z ≠ 0 → ratPow z (n : Rat) = z ^ n := by
    intro z _
    unfold ratPow
    split
    · next h1 => rw [h1, one_pow]
    · rw [Rat.num_natCast, zpow_natCast]
  obtain ⟨c, vars, he, hc, hv⟩ := isExpr_assemble hp.expr
  have hck : c = 10 ^ k := by rw [← hr, printed, he, totalCoef_assemble hv]
  have hu : r.units = vars := by
    rw [← units_assemble hv (c := c) 1]
    simp only [Reduction.units, he]
  have hnum : (IsDouble c ∧ IsDouble (ratPow c n)) := by
    refine ⟨by rw [hck]; exact (plain_ten hle).2, ?_⟩
    rw [hpow c hc, hck, ← pow_mul]
    exact (plain_ten hkn).2
  have hvar : ∀ t ∈ vars, (IsDouble t.coef ∧ IsDouble (ratPow t.coef n)) ∧ IsDouble t.exp ∧ IsDouble (t.exp * n) := by
    intro t ht
    have h1 : t.exp = d.exp t.base := by rw [← proper_exp hp (by rw [hu]; exact ht), ha]
    rw [(hv.1 t ht).1, hpow 1 one_ne_zero, one_pow, h1]
    exact ⟨⟨isDouble_one, isDouble_one⟩, hint _ (definition_small hd _).1 (definition_small hd _).2⟩
  refine ⟨by have := hone.2; rwa [one_mul] at this, fun t ht => ?_⟩
  rw [he] at ht
  unfold assemble at ht
  split at ht
  · simp at ht; subst ht; exact ⟨hnum, hone⟩
  · split at ht
    · exact hvar t ht
    · rcases List.mem_cons.1 ht with rfl | ht
      · exact ⟨hnum, hone⟩
      · exact hvar t ht

theorem reducible_named {s : System} {u : NamedUnit} (hu : u ∈ allUnits) (hx : u.base.symbol ∉ exceptions)
    {d : Definition} (hd : d ∈ definitions s) (hs : d.symbol = u.base.symbol) {k n : Nat}
    (hk : k < 16 ∧ u.pre.factor * d.value = 10 ^ k) {t : Term} (hi : actualBook.ident t.base = .ok u)
    (hn : n ≠ 0 ∧ n ≤ 2 ^ 40 ∧ k * n ≤ 7) (ht : t.exp = n) :
    ∃ r, Reducible actualBook (some s) t r ∧ Agrees d u.pre.factor r := by
  obtain ⟨r, h1, h2, h3, h4⟩ := c212_defined_partial s u hu hx d hd hs ⟨k, hk⟩
  have hsc : r.scale = 10 ^ k := by rw [h2.1, hk.2]
  have hpow : r.scale ^ t.exp.num = 10 ^ (k * n) := by
    rw [ht, hsc, Rat.num_natCast, zpow_natCast, ← pow_mul]
  refine ⟨r, ⟨⟨u, hi, h1⟩, h4, by rw [hsc]; positivity, h3, by rw [ht]; exact_mod_cast hn.1, ?_, ?_, ?_, ?_, ?_⟩, h2⟩
  · rw [ht]; exact Rat.den_natCast n
  · rw [ht]; exact floats_named hd h4 h2.2 (by rw [h3, hsc]) (by omega) hn.1 hn.2.1
  · rw [hpow]; exact plain_ten (by omega)
  · rw [hpow, ← pow_add]; exact plain_ten (by omega)
  · rw [hpow, ← pow_add, ← pow_add]; exact plain_ten (by omega)

/-- While a reduction is multiplied by powers of ten with the given exponents, all the numbers that are printed are floats.
The arguments are the exponents of the scale and of the printed number. -/
def Tens (s p : Nat) : List Nat → Prop
  | [] => True
  | x :: xs => 2 * (s + x) + p < 23 ∧ Tens (s + x) (2 * (s + x) + p) xs

theorem fits_tens : ∀ (l : List Nat) (s p : Nat), Tens s p l →
    Fits (10 ^ s) (10 ^ p) (l.map (fun k => (10 : Rat) ^ k))
  | [], _, _, _ => trivial
  | x :: xs, s, p, ⟨h, h'⟩ => by
    have ih := fits_tens xs _ _ h'
    simp only [List.map_cons, Fits, ← pow_add, ← pow_mul]
    refine ⟨plain_ten (by omega), plain_ten (by omega), plain_ten (by omega), ?_⟩
    rw [show (s + x) * 2 + p = 2 * (s + x) + p by ring]
    exact ih

/-- **C213 (partial), for the actual units.** The reduction of a product of positive whole powers of units has the product of
the powers of the values in the definitions as its scale. Its units are those of the first term only. The printed numbers,
which grow faster than the scale, must be floats. -/
theorem c213_named_partial (num : Rat → Res Str) (hnum : ∀ x, x ≠ 0 → Plain x → Reads num x) (s : System)
    (unit : Term → NamedUnit) (d : Term → Definition) (n k : Term → Nat) (t : Term) (ts : List Term)
    (h : ∀ v ∈ t :: ts, actualBook.ident v.base = .ok (unit v) ∧ unit v ∈ allUnits ∧ (unit v).base.symbol ∉ exceptions
      ∧ d v ∈ definitions s ∧ (d v).symbol = (unit v).base.symbol
      ∧ (k v < 16 ∧ (unit v).pre.factor * (d v).value = 10 ^ k v)
      ∧ (n v ≠ 0 ∧ n v ≤ 2 ^ 40 ∧ k v * n v ≤ 7) ∧ v.exp = n v)
    (hf : Tens (k t * n t) (k t * n t * 3) (ts.map (fun v => k v * n v))) :
    ∃ q, reductionOf num actualBook (some s) (t :: ts) = .ok (some q)
      ∧ q.scale = ((t :: ts).map (fun v => ((unit v).pre.factor * (d v).value) ^ n v)).prod
      ∧ ∀ y, y ≠ one → totalExp q.units y = (d t).exp y * n t := by
  have hr : ∀ v, ∃ r, v ∈ t :: ts → Reducible actualBook (some s) v r ∧ Agrees (d v) (unit v).pre.factor r := by
    intro v
    by_cases hv : v ∈ t :: ts
    · obtain ⟨h1, h2, h3, h4, h5, h6, h7, h8⟩ := h v hv
      obtain ⟨r, hr⟩ := reducible_named h2 h3 h4 h5 h6 h1 h7 h8
      exact ⟨r, fun _ => hr⟩
    · exact ⟨⟨[], 0⟩, fun h => absurd h hv⟩
  choose f hf' using hr
  have hpow : ∀ v ∈ t :: ts, (f v).scale ^ v.exp.num = 10 ^ (k v * n v) := by
    intro v hv
    obtain ⟨_, _, _, _, _, h6, _, h8⟩ := h v hv
    rw [(hf' v hv).2.1, h6.2, h8, Rat.num_natCast, zpow_natCast, ← pow_mul]
  obtain ⟨q, h1, h2, h3⟩ := c213_partial num hnum actualBook (some s) f t ts (fun v hv => (hf' v hv).1) (by
    have := fits_tens _ _ _ hf
    rw [List.map_map] at this
    rw [hpow t (by simp), ← pow_mul]
    rw [List.map_congr_left (fun v hv => hpow v (List.mem_cons_of_mem _ hv))]
    exact this)
  refine ⟨q, h1, ?_, ?_⟩
  · rw [h2]
    refine congrArg List.prod (List.map_congr_left fun v hv => ?_)
    rw [(hf' v hv).2.1, (h v hv).2.2.2.2.2.2.2, Rat.num_natCast, zpow_natCast]
  · intro y hy
    rw [h3 y hy, (hf' t (by simp)).2.2 y, (h t (by simp)).2.2.2.2.2.2.2]

/-- Square metres times kilojoules times kilometres; the units of the kilojoule are lost. -/
example : ∃ q, reductionOf fraction actualBook (some .mks) [⟨1, c!"m", 2⟩, ⟨1, c!"kJ", 1⟩, ⟨1, c!"km", 1⟩] = .ok (some q)
    ∧ q.scale = 10 ^ 6 ∧ totalExp q.units c!"m" = 2 := by
  have hm : ∃ u ∈ allUnits, actualBook.ident c!"m" = .ok u ∧ u.base.symbol = c!"m" ∧ u.pre.factor = 1 := by
    rw [actualBook_eq]; decide +kernel
  have hkm : ∃ u ∈ allUnits, actualBook.ident c!"km" = .ok u ∧ u.base.symbol = c!"m" ∧ u.pre.factor = 1000 := by
    rw [actualBook_eq]; decide +kernel
  have hkJ : ∃ u ∈ allUnits, actualBook.ident c!"kJ" = .ok u ∧ u.base.symbol = c!"J" ∧ u.pre.factor = 1000 := by
    rw [actualBook_eq]; decide +kernel
  obtain ⟨u, a2, a1, a3, a4⟩ := hm
  obtain ⟨v, b2, b1, b3, b4⟩ := hkJ
  obtain ⟨w, c2, c1, c3, c4⟩ := hkm
  obtain ⟨q, h1, h2, h3⟩ := c213_named_partial fraction (fun x hx hw => reads_fraction hx hw) .mks
    (fun t => if t.base = c!"m" then u else if t.base = c!"kJ" then v else w)
    (fun t => if t.base = c!"kJ" then ⟨c!"J", 1, [(c!"kg", 1), (c!"m", 2), (c!"s", -2)]⟩ else ⟨c!"m", 1, [(c!"m", 1)]⟩)
    (fun t => if t.base = c!"m" then 2 else 1) (fun t => if t.base = c!"m" then 0 else 3)
    ⟨1, c!"m", 2⟩ [⟨1, c!"kJ", 1⟩, ⟨1, c!"km", 1⟩] (by
      intro x hx
      simp only [List.mem_cons, List.not_mem_nil, or_false] at hx
      have e1 : c!"kJ" ≠ c!"m" := by decide
      have e2 : c!"km" ≠ c!"m" := by decide
      have e3 : c!"km" ≠ c!"kJ" := by decide
      rcases hx with rfl | rfl | rfl
      · simp only [if_true, if_neg (Ne.symm e1)]
        exact ⟨a1, a2, by rw [a3]; decide +kernel, by simp [definitions, siDefinitions], a3.symm,
          ⟨by norm_num, by rw [a4]; norm_num⟩, by norm_num, by norm_num⟩
      · simp only [if_true, if_neg e1]
        exact ⟨b1, b2, by rw [b3]; decide +kernel, by simp [definitions, siDefinitions], b3.symm,
          ⟨by norm_num, by rw [b4]; norm_num⟩, by norm_num, by norm_num⟩
      · simp only [if_neg e2, if_neg e3]
        exact ⟨c1, c2, by rw [c3]; decide +kernel, by simp [definitions, siDefinitions], c3.symm,
          ⟨by norm_num, by rw [c4]; norm_num⟩, by norm_num, by norm_num⟩)
    (by simp [Tens])
  refine ⟨q, h1, ?_, ?_⟩
  · rw [h2]
    simp [a4, b4, c4]
    norm_num
  · rw [h3 _ (by decide)]
    simp [Definition.exp]

/-- The reduction of an expression: its scale and its units. -/
def reducedExpr (b : Book) (s : System) (unit : Str) : Res (Option (Rat × List Term)) := do
  return (← reductionOf fraction b (some s) (← ofString unit)).map (fun r => (r.scale, r.units))

/-- **C213 (counterexample).** `N m` reduces to the base units of the newton, without the metre; `km / h` to 1000 metres,
since the hour is left out. -/
theorem c213_counterexample :
    reducedExpr actualBook .mks c!"N m" = .ok (some (1, [⟨1, c!"kg", 1⟩, ⟨1, c!"m", 1⟩, ⟨1, c!"s", -2⟩]))
    ∧ reducedExpr actualBook .mks c!"km / h" = .ok (some (1000, [⟨1, c!"m", 1⟩])) := by
  rw [actualBook_eq]; decide +kernel

end Verif.Reductions
