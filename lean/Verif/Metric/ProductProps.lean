import Verif.Metric.ConversionProps
import Verif.Metric.UnitProps

/-! C77: products of units -/

set_option linter.unusedSimpArgs false
set_option linter.unusedSectionVars false

namespace Verif.Metric

open Verif.Py Verif.Symbolic

section
variable {K : Type _} [DecidableEq K] [Field K]

/-- A search that can succeed at once does so whatever has been checked. -/
theorem convert_direct (e : Env Str BaseUnit K) {u v : Str} {f : K} (h : direct e u v = some f)
    (checked : List Str) : convert e (enough e) checked u v = some (some f, checked ++ [u]) := by
  unfold enough convert
  rw [h]

/-- A search between units that no chain connects fails, whatever has been checked. -/
theorem convert_unrelated (e : Env Str BaseUnit K) {base : List ((Str × Str) × K)} (hc : e.conns = mkConns base)
    {u v : Str} (h : ∀ f, ¬ Chain base e.named u v f) (checked : List Str) :
    ∃ c, convert e (enough e) checked u v = some (none, c) := by
  obtain ⟨o, c, h1, -⟩ := convert_total e v (enough e) checked u (pending_lt_enough e _)
  cases o with
  | none => exact ⟨c, h1⟩
  | some f => exact absurd (convert_sound e hc _ _ _ _ _ _ h1).1 (h f)

/-- Among terms with at most one that can be converted to, at once, that one is found. -/
theorem tryLike_found (e : Env Str BaseUnit K) (pow : K → Rat → K) (target p : Term) (f : K)
    (hf : direct e target.base p.base = some f) :
    ∀ (ts : List Term) (checked : List Str), p ∈ ts →
      (∀ t ∈ ts, t ≠ p → ∀ checked, ∃ c, convert e (enough e) checked target.base t.base = some (none, c)) →
      ∃ c, tryLike e pow target ts checked = (some (pow f target.exp, p), c) := by
  intro ts
  induction ts with
  | nil => intro _ h; simp at h
  | cons t ts ih =>
    intro checked hp hall
    by_cases htp : t = p
    · subst htp
      refine ⟨checked ++ [target.base], ?_⟩
      unfold tryLike
      rw [convert_direct e hf]
    · obtain ⟨c, hc⟩ := hall t (by simp) htp checked
      have hp' : p ∈ ts := by
        rcases List.mem_cons.1 hp with h | h
        · exact absurd h.symm htp
        · exact h
      obtain ⟨c', hc'⟩ := ih c hp' (fun u hu => hall u (by simp [hu]))
      refine ⟨c', ?_⟩
      unfold tryLike
      rw [hc]
      exact hc'

/-- The terms of the pairs. -/
def pairTerms (ps : List (Term × Term)) : List Term := ps.flatMap (fun p => [p.1, p.2])

/-- What is needed of each pair of terms: opposite exponents, and conversions in either direction that can be
found at once and agree. -/
structure Paired (e : Env Str BaseUnit K) (pow : K → Rat → K) (w : Term × Term → K) (p : Term × Term) : Prop where
  ne : p.1 ≠ p.2
  exp : p.2.exp = -p.1.exp
  forth : ∃ f, direct e p.1.base p.2.base = some f ∧ pow f p.1.exp = w p
  back : ∃ g, direct e p.2.base p.1.base = some g ∧ pow g p.2.exp = w p

theorem mem_pairTerms {ps : List (Term × Term)} {t : Term} :
    t ∈ pairTerms ps ↔ ∃ p ∈ ps, t = p.1 ∨ t = p.2 := by
  unfold pairTerms; simp

theorem pairTerms_erase {ps : List (Term × Term)} {p : Term × Term} (h : p ∈ ps) :
    (pairTerms ps).Perm (p.1 :: p.2 :: pairTerms (ps.erase p)) := by
  have := (List.perm_cons_erase h).flatMap_right (fun p : Term × Term => [p.1, p.2])
  simpa [pairTerms] using this

theorem pair_unique {ps : List (Term × Term)} (hnd : (pairTerms ps).Nodup) {p p' : Term × Term} (hp : p ∈ ps)
    (hp' : p' ∈ ps) {t : Term} (h : t = p.1 ∨ t = p.2) (h' : t = p'.1 ∨ t = p'.2) : p = p' := by
  by_contra hne
  have hmem : t ∈ pairTerms (ps.erase p) :=
    mem_pairTerms.2 ⟨p', (List.mem_erase_of_ne (fun h => hne h.symm)).2 hp', h'⟩
  have := (pairTerms_erase hp).nodup_iff.1 hnd
  simp only [List.nodup_cons, List.mem_cons, not_or] at this
  rcases h with rfl | rfl
  · exact this.1.2 hmem
  · exact this.2.1 hmem

theorem resolve_pairs (e : Env Str BaseUnit K) (pow : K → Rat → K) (dimless : Name → Res Bool)
    (w : Term × Term → K) (ps : List (Term × Term)) (hnd : (pairTerms ps).Nodup)
    (hp : ∀ p ∈ ps, Paired e pow w p)
    (hother : ∀ t ∈ pairTerms ps, ∀ u ∈ pairTerms ps, u.exp = -t.exp → (t, u) ∉ ps → (u, t) ∉ ps →
      ∀ checked, ∃ c, convert e (enough e) checked t.base u.base = some (none, c)) :
    ∀ (ts : List Term) (rem : List (Term × Term)) (r : Resolving K),
      (∀ p ∈ rem, p ∈ ps) → (pairTerms rem).Nodup → r.unmatched.Perm (pairTerms rem) →
      (∀ t ∈ ts, t ∈ pairTerms ps) → (∀ t ∈ pairTerms rem, t ∈ ts) →
      (∀ t ∈ pairTerms ps, t ∈ r.matched ↔ t ∉ pairTerms rem) →
      ∃ c m, ts.foldlM (resolveStep e pow dimless) r = .ok ⟨r.factor * (rem.map w).prod, m, [], c⟩ := by
  intro ts
  induction ts with
  | nil =>
    intro rem r _ _ hu _ hts _
    have hrem : rem = [] := by
      cases rem with
      | nil => rfl
      | cons p rem => exact absurd (hts p.1 (by simp [mem_pairTerms])) (by simp)
    subst hrem
    have : r.unmatched = [] := List.Perm.eq_nil (by simpa [pairTerms] using hu)
    obtain ⟨a, b, c, d⟩ := r
    simp only at this
    subst this
    exact ⟨d, b, by simp [pure, Except.pure]⟩
  | cons t ts ih =>
    intro rem r hsub hnr hu hts hall hm
    rw [List.foldlM_cons]
    by_cases hmt : t ∈ r.matched
    · have : resolveStep e pow dimless r t = .ok r := by unfold resolveStep; rw [if_pos hmt]
      rw [this]
      have htr := (hm t (hts t (by simp))).1 hmt
      refine ih rem r hsub hnr hu (fun x hx => hts x (by simp [hx])) (fun x hx => ?_) hm
      rcases List.mem_cons.1 (hall x hx) with h | h
      · exact absurd (h ▸ hx) htr
      · exact h
    · have htr : t ∈ pairTerms rem := by
        by_contra h
        exact hmt ((hm t (hts t (by simp))).2 h)
      obtain ⟨p, hpr, htp⟩ := mem_pairTerms.1 htr
      have hpp := hp p (hsub p hpr)
      -- the partner
      obtain ⟨q, f, hq, hqt, hqe, hqd, hqw, hqp⟩ : ∃ q f, q ∈ pairTerms rem ∧ q ≠ t ∧ q.exp = -t.exp
          ∧ direct e t.base q.base = some f ∧ pow f t.exp = w p ∧ ((t = p.1 ∧ q = p.2) ∨ (t = p.2 ∧ q = p.1)) := by
        rcases htp with h | h
        · obtain ⟨f, h1, h2⟩ := hpp.forth
          exact ⟨p.2, f, mem_pairTerms.2 ⟨p, hpr, Or.inr rfl⟩, fun h' => hpp.ne (h ▸ h'.symm), h ▸ hpp.exp, h ▸ h1,
            h ▸ h2, Or.inl ⟨h, rfl⟩⟩
        · obtain ⟨f, h1, h2⟩ := hpp.back
          exact ⟨p.1, f, mem_pairTerms.2 ⟨p, hpr, Or.inl rfl⟩, fun h' => hpp.ne (h ▸ h'), by
            rw [h, hpp.exp, neg_neg], h ▸ h1, h ▸ h2, Or.inr ⟨h, rfl⟩⟩
      have hpairs : ∀ u, u ∈ pairTerms rem → u ≠ q → (t, u) ∉ ps ∧ (u, t) ∉ ps := by
        intro u _ huq
        constructor
        · intro h
          have heq := pair_unique hnd (hsub p hpr) h htp (Or.inl rfl)
          rcases hqp with ⟨h1, h2⟩ | ⟨h1, h2⟩
          · exact huq (by rw [h2, heq])
          · exact hpp.ne (by rw [← h1, heq])
        · intro h
          have heq := pair_unique hnd (hsub p hpr) h htp (Or.inr rfl)
          rcases hqp with ⟨h1, h2⟩ | ⟨h1, h2⟩
          · exact hpp.ne (by rw [← h1, heq])
          · exact huq (by rw [h2, heq])
      have hlike : q ∈ likeTerms t r.unmatched := by
        unfold likeTerms
        simp only [List.mem_filter, decide_eq_true_eq]
        exact ⟨hu.mem_iff.2 hq, hqt, hqe⟩
      obtain ⟨c, hc⟩ := tryLike_found e pow t q f hqd (likeTerms t r.unmatched) r.checked hlike (by
        intro u hul huq
        obtain ⟨h1, h2, h3⟩ := likeTerms_mem hul
        have h1' := hu.mem_iff.1 h1
        obtain ⟨h4, h5⟩ := hpairs u h1' huq
        have hps : ∀ x ∈ pairTerms rem, x ∈ pairTerms ps := by
          intro x hx
          obtain ⟨y, hy, h⟩ := mem_pairTerms.1 hx
          exact mem_pairTerms.2 ⟨y, hsub y hy, h⟩
        exact hother t (hps t htr) u (hps u h1') h3 h4 h5)
      have hstep : resolveStep e pow dimless r t
          = .ok ⟨r.factor * w p, r.matched ++ [t, q], (r.unmatched.erase t).erase q, c⟩ := by
        unfold resolveStep matchTerms
        rw [if_neg hmt, hc]
        simp only [bind, Except.bind, pure, Except.pure]
        rw [if_pos hqt, hqw]
      rw [hstep]
      simp only [bind, Except.bind]
      have hremp : rem.Perm (p :: rem.erase p) := List.perm_cons_erase hpr
      have hflat := pairTerms_erase hpr
      have hflat' : (pairTerms rem).Perm (t :: q :: pairTerms (rem.erase p)) := by
        rcases hqp with ⟨h1, h2⟩ | ⟨h1, h2⟩
        · rw [h1, h2]; exact hflat
        · rw [h1, h2]; exact hflat.trans (List.Perm.swap _ _ _)
      have hnd' := hflat'.nodup_iff.1 hnr
      have hu' : ((r.unmatched.erase t).erase q).Perm (pairTerms (rem.erase p)) := by
        have h1 := (hu.trans hflat').erase t
        have h2 := h1.erase q
        simpa using h2
      obtain ⟨c', m', hih⟩ := ih (rem.erase p)
        ⟨r.factor * w p, r.matched ++ [t, q], (r.unmatched.erase t).erase q, c⟩ (fun x hx => hsub x (List.mem_of_mem_erase hx))
        (by simp at hnd'; exact hnd'.2.2) hu' (fun x hx => hts x (by simp [hx]))
        (fun x hx => by
          rcases List.mem_cons.1 (hall x (hflat'.mem_iff.2 (by simp [hx]))) with h | h
          · subst h; simp at hnd'; exact absurd hx hnd'.1.2
          · exact h)
        (fun x hx => by
          have := hm x hx
          have h2 := hflat'.mem_iff (a := x)
          simp only [List.mem_cons] at h2
          simp only [List.mem_append, List.mem_cons, List.not_mem_nil, or_false, this]
          rw [h2]
          simp only [List.nodup_cons, List.mem_cons, not_or] at hnd'
          constructor
          · rintro (h | h | h)
            · exact fun h' => h (Or.inr (Or.inr h'))
            · subst h; exact hnd'.1.2
            · subst h; exact hnd'.2.1
          · intro h
            by_cases h3 : x = t
            · exact Or.inr (Or.inl h3)
            · by_cases h4 : x = q
              · exact Or.inr (Or.inr h4)
              · left; rintro (h5 | h5 | h5)
                · exact h3 h5
                · exact h4 h5
                · exact h h5)
      refine ⟨c', m', ?_⟩
      rw [hih]
      have : (rem.map w).prod = w p * ((rem.erase p).map w).prod := by
        have := (hremp.map w).prod_eq
        simpa using this
      rw [this]
      simp only [mul_assoc]

end

/-- Two units that differ in the metric prefix only, or are the two ends of a declared conversion. -/
def Near (s t : Str) : Prop :=
  (∃ u v, identify s = .ok u ∧ identify t = .ok v ∧ u.base = v.base ∧ u.scale ≠ 0 ∧ v.scale ≠ 0)
    ∨ Declared (declaredConversions Real.pi) s t

theorem Near.symm {s t : Str} (h : Near s t) : Near t s := by
  rcases h with ⟨u, v, h1, h2, h3, h4, h5⟩ | ⟨w, h⟩
  · exact Or.inl ⟨v, u, h2, h1, h3.symm, h5, h4⟩
  · exact Or.inr ⟨w, h.symm⟩

theorem env_conns {K : Type _} [Field K] [DecidableEq K] (pi : K) (order : List Str) :
    (env pi order).conns = mkConns (declaredConversions pi) := by rw [env]

theorem env_named {K : Type _} [Field K] [DecidableEq K] (pi : K) (order : List Str) :
    (env pi order).named = named := by rw [env]

theorem declared_ne {pi : ℝ} (hpi : pi ≠ 0) : ∀ p ∈ declaredConversions pi, p.2 ≠ 0 := by
  intro p hp
  obtain ⟨⟨u, v⟩, w⟩ := p
  have h1 := declared_magnitude hpi u v w hp
  intro hw
  have hw' : w = 0 := hw
  rw [hw', zero_mul] at h1
  exact magnitude_ne hpi u h1

theorem direct_of_near {K : Type _} [Field K] [DecidableEq K] (e : Env Str BaseUnit K)
    {base : List ((Str × Str) × K)} (hc : e.conns = mkConns base) (hb : ∀ p ∈ base, p.2 ≠ 0) {s t : Str}
    (h : (∃ m n, e.named s = some m ∧ e.named t = some n ∧ m.base = n.base ∧ m.scale ≠ 0 ∧ n.scale ≠ 0)
      ∨ Declared base s t) : ∃ f, direct e s t = some f := by
  suffices h' : ∃ f, f ≠ 0 ∧ simple e s t = some f by
    obtain ⟨f, hf, h'⟩ := h'
    refine ⟨f, ?_⟩
    unfold direct
    rw [h']
    simp [truthy, Option.filter, hf]
  unfold simple
  by_cases hst : s = t
  · exact ⟨1, one_ne_zero, by rw [if_pos hst]⟩
  rw [if_neg hst]
  cases hts : truthy (search e s t) with
  | some w => exact ⟨w, (truthy_some hts).2, rfl⟩
  | none =>
    rcases h with ⟨m, n, h1, h2, h3, h4, h5⟩ | h
    · refine ⟨m.scale / n.scale, div_ne_zero h4 h5, ?_⟩
      unfold ratio?
      rw [h1, h2]
      simp only [h3, if_true]
    · exfalso
      obtain ⟨w, hw⟩ := declared_conns e hc h
      have hne := conns_ne_zero e hc hb
      have hk : (s, t) ∈ e.conns.keys := List.mem_map.2 ⟨_, hw, rfl⟩
      obtain ⟨x, hx⟩ := Option.isSome_iff_exists.1 ((Dict.get?_isSome_iff _ _).2 hk)
      have := truthy_none hts (f := x) (by unfold search; rw [hx])
      exact hne _ (Dict.mem_of_get? hx) this

theorem named_of {K : Type _} [Field K] {s : Str} {u : NamedUnit} (h : identify s = .ok u) :
    named (K := K) s = some u.toNamed := by
  rw [named, h]; rfl

/-- Between such units, the factor is found at once. -/
theorem direct_near (order : List Str) {s t : Str} (h : Near s t) :
    direct (env Real.pi order) s t = some (magnitude Real.pi s / magnitude Real.pi t) := by
  have hcons := actual_consistent (K := ℝ) Real.pi_ne_zero
  obtain ⟨f, hf⟩ : ∃ f, direct (env Real.pi order) s t = some f := by
    refine direct_of_near (env Real.pi order) (env_conns _ _) (declared_ne Real.pi_ne_zero) ?_
    rcases h with ⟨u, v, h1, h2, h3, h4, h5⟩ | h
    · left
      rw [env_named]
      exact ⟨u.toNamed, v.toNamed, named_of h1, named_of h2, h3, Rat.cast_ne_zero.2 h4, Rat.cast_ne_zero.2 h5⟩
    · exact Or.inr h
  obtain ⟨h1, h2⟩ := chain_direct (env Real.pi order) (env_conns _ _) hf
  rw [env_named] at h1
  rw [hf, chain_consistent hcons h1 h2]

theorem convert_classes (order : List Str) {s t : Str} (h : quantityClass s ≠ quantityClass t) (checked : List Str) :
    ∃ c, convert (env Real.pi order) (enough (env Real.pi order)) checked s t = some (none, c) := by
  refine convert_unrelated (env Real.pi order) (env_conns _ _) (fun f hf => h ?_) checked
  rw [env_named] at hf
  exact chain_class hf

theorem terms_nodup {a : List Term} (h : IsExpr a) : a.Nodup := by
  obtain ⟨c, vars, rfl, hc, hv⟩ := isExpr_assemble h
  have hn : vars.Nodup := List.Nodup.of_map _ hv.2.1
  unfold assemble
  split
  · simp
  · split
    · exact hn
    · refine List.nodup_cons.2 ⟨?_, hn⟩
      intro hm
      exact (hv.1 _ hm).2.1 rfl

/-- **C77, products.** Let the terms of the quotient of two products of powers of units consist of pairs with
opposite exponents, each of which is two units that differ in the prefix or are the ends of a declared conversion;
and let any other two terms with opposite exponents be units of different quantities. Then the conversion succeeds,
with the ratio of the magnitudes.

Missing: pairs for which other units have to be visited (`c77_counterexample`). -/
theorem c77_products_partial (b : Book) (order : List Str) (u0 u1 : Str) (e0 e1 r : List Term)
    (hs : ∀ f, convertStrings (env Real.pi order) u0 u1 ≠ some (some f))
    (h0 : ofString u0 = .ok e0) (h1 : ofString u1 = .ok e1) (hu0 : UnitLike e0) (hu1 : UnitLike e1)
    (hr : exprDiv e0 e1 = .ok r) (ps : List (Term × Term)) (hps : ps ≠ [])
    (hterms : (r.filter (fun t => t.base ∉ unity)).Perm (pairTerms ps))
    (hpair : ∀ p ∈ ps, p.2.exp = -p.1.exp ∧ Near p.1.base p.2.base)
    (hother : ∀ t ∈ pairTerms ps, ∀ u ∈ pairTerms ps, u.exp = -t.exp → (t, u) ∉ ps → (u, t) ∉ ps →
      quantityClass t.base ≠ quantityClass u.base) :
    conversion b (env Real.pi order) realPow u0 u1 = .ok (magnitudeRatio e0 e1) := by
  have hconv : conversion b (env Real.pi order) realPow u0 u1
      = convertAsExpressions b (env Real.pi order) realPow u0 u1 := by
    unfold conversion
    split
    · next f hf => exact absurd hf (hs f)
    · rfl
  rw [hconv]
  unfold convertAsExpressions
  rw [h0, h1]
  simp only [bind, Except.bind]
  obtain ⟨r', hr', hru, hval⟩ := ratio_unit hu0 hu1
  have hrr : r' = r := by rw [hr] at hr'; injection hr' with h; exact h.symm
  subst hrr
  by_cases heq : exprEq e0 e1 = true
  · rw [if_pos heq]
    have := ((c20_eq e0 e1 hu0.1 hu1.1).2.1 heq) magnitudes
    unfold magnitudeRatio
    rw [this, div_self]
    · rfl
    · rw [value_eq_exp, hu1.totals.1]; simp [Real.exp_ne_zero]
  rw [if_neg heq, hr]
  simp only [bind, Except.bind]
  have hnd : (pairTerms ps).Nodup := hterms.nodup_iff.1 ((terms_nodup hru.1).filter _)
  have hpos := magnitude_pos
  let w : Term × Term → ℝ := fun p => powerOf magnitudes.val p.1 * powerOf magnitudes.val p.2
  have hpow : ∀ (s t : Str) (q q' : Rat), q' = -q →
      realPow (magnitude Real.pi s / magnitude Real.pi t) q
        = magnitude Real.pi s ^ (q : ℝ) * magnitude Real.pi t ^ (q' : ℝ) := by
    intro s t q q' h
    unfold realPow
    rw [Real.div_rpow (hpos _).le (hpos _).le, h, div_eq_mul_inv, ← Real.rpow_neg (hpos _).le]
    simp
  have hpaired : ∀ p ∈ ps, Paired (env Real.pi order) realPow w p := by
    intro p hp
    obtain ⟨h2, h3⟩ := hpair p hp
    refine ⟨?_, h2, ⟨_, direct_near order h3, hpow _ _ _ _ h2⟩, ⟨_, direct_near order h3.symm, ?_⟩⟩
    · have := (pairTerms_erase hp).nodup_iff.1 hnd
      simp only [List.nodup_cons, List.mem_cons, not_or] at this
      exact this.1.1
    · rw [hpow _ _ _ p.1.exp (by rw [h2, neg_neg])]
      exact mul_comm _ _
  have hlen : ¬ (r'.filter (fun t => t.base ∉ unity)).length ≤ 1 := by
    rw [hterms.length_eq]
    cases ps with
    | nil => exact absurd rfl hps
    | cons p ps => simp [pairTerms]
  obtain ⟨c, m, hfold⟩ := resolve_pairs (env Real.pi order) realPow (dimensionless b) w ps hnd hpaired
    (fun t ht u hu he h2 h3 checked => convert_classes order (hother t ht u hu he h2 h3) checked)
    (r'.filter (fun t => t.base ∉ unity)) ps ⟨1, [], r'.filter (fun t => t.base ∉ unity), []⟩
    (fun _ h => h) hnd hterms (fun t ht => hterms.mem_iff.1 ht) (fun t ht => hterms.mem_iff.2 ht)
    (fun t ht => by simp [ht])
  unfold resolveTerms
  rw [if_neg hlen, hfold]
  simp only [bind, Except.bind, pure, Except.pure, if_true, one_mul]
  have hprod : (ps.map w).prod = magnitudeRatio e0 e1 := by
    unfold magnitudeRatio
    rw [← hval, (hterms.map _).prod_eq]
    clear hterms hpair hother hnd hpaired hfold hlen hps
    induction ps with
    | nil => rfl
    | cons p ps ih =>
      simp only [pairTerms, List.flatMap_cons, List.map_append, List.map_cons, List.map_nil, List.prod_append,
        List.prod_cons, List.prod_nil, mul_one] at ih ⊢
      rw [ih]
  have hne : magnitudeRatio e0 e1 ≠ 0 := by
    unfold magnitudeRatio
    refine div_ne_zero ?_ ?_
    · rw [value_eq_exp, hu0.totals.1]; simp [Real.exp_ne_zero]
    · rw [value_eq_exp, hu1.totals.1]; simp [Real.exp_ne_zero]
  rw [hprod]
  have : truthy (some (magnitudeRatio e0 e1)) = some (magnitudeRatio e0 e1) := by
    simp [truthy, Option.filter, hne]
  rw [this]

theorem declared_nonempty : ((declaredConversions (K := Rat) 0).map (·.1)).all
    (fun p => !(quantityClass p.1).isEmpty && !(quantityClass p.2).isEmpty) = true := by decide +kernel

theorem units_nonempty : units.all (fun u => mixed u.quantity ≠ []) = true := by decide +kernel

theorem class_of_named {s : Str} {u : NamedUnit} (h : lookupFast s = some u) : quantityClass s ≠ [] := by
  have hl : lookup s = some u := by rw [lookup_fast, h]
  obtain ⟨h1, -⟩ := lookup_some hl
  have := List.all_eq_true.1 units_nonempty _ (mem_allUnits.1 h1).2
  rw [quantityClass_of h]
  have h3 : mixed u.base.quantity ≠ [] := by simpa using this
  exact h3

/-- Texts that are neither units nor ends of declared conversions are connected to themselves only. -/
theorem chain_compound {K : Type _} [Field K] [CharZero K] [DecidableEq K] {pi : K} {u v : Str} {f : K}
    (hu : quantityClass u = []) (h : Chain (declaredConversions pi) named u v f) : u = v := by
  have hdecl : ∀ u v w, ((u, v), w) ∈ declaredConversions pi → quantityClass u ≠ [] ∧ quantityClass v ≠ [] := by
    intro u v w hd
    have hm : (u, v) ∈ (declaredConversions pi).map (·.1) :=
      List.mem_map_of_mem (f := Prod.fst) hd
    rw [declared_ends] at hm
    have := List.all_eq_true.1 declared_nonempty _ hm
    simpa using this
  cases h with
  | nil => rfl
  | cons s _ =>
    exfalso
    cases s with
    | declared hd => exact (hdecl _ _ _ hd).1 hu
    | inverse hd _ => exact (hdecl _ _ _ hd).2 hu
    | other hn hx =>
      obtain ⟨x, hx', rfl⟩ := named_some hn
      exact class_of_named hx' hu
    | unother hn hx =>
      obtain ⟨x, hx', rfl⟩ := named_some hn
      rcases hx with rfl | rfl
      · exact class_of_named hx' ((class_spelling hx').1.symm.trans hu)
      · exact class_of_named hx' ((class_spelling hx').2.symm.trans hu)
    | rescale hm hn hb =>
      obtain ⟨x, hx, rfl⟩ := named_some hm
      exact class_of_named hx hu

theorem convertStrings_compound (order : List Str) {u v : Str} (hu : quantityClass u = []) (huv : u ≠ v) (f : ℝ) :
    convertStrings (env Real.pi order) u v ≠ some (some f) := fun h =>
  huv (chain_compound hu (convertStrings_chain (declaredConversions Real.pi) order named u v f h))

theorem class_km_s : quantityClass c!"km / s" = [] := by
  rw [quantityClass_of (show lookupFast c!"km / s" = none by decide +kernel)]
  decide +kernel

theorem fast_km : lookupFast c!"km" = some ⟨⟨c!"k", c!"kilo", 1000⟩, ⟨c!"m", c!"meter", c!"length"⟩⟩ := by
  decide +kernel
theorem fast_m : lookupFast c!"m" = some ⟨⟨c!"", c!"", 1⟩, ⟨c!"m", c!"meter", c!"length"⟩⟩ := by decide +kernel
theorem fast_ms : lookupFast c!"ms" = some ⟨⟨c!"m", c!"milli", 1 / 1000⟩, ⟨c!"s", c!"second", c!"time"⟩⟩ := by
  decide +kernel
theorem fast_s : lookupFast c!"s" = some ⟨⟨c!"", c!"", 1⟩, ⟨c!"s", c!"second", c!"time"⟩⟩ := by decide +kernel

theorem identify_fast {s : Str} {u : NamedUnit} (h : lookupFast s = some u) : identify s = .ok u := by
  rw [identify_eq, lookup_fast, h]; rfl

theorem near_fast {s t : Str} {u v : NamedUnit} (hs : lookupFast s = some u) (ht : lookupFast t = some v)
    (hb : u.base = v.base) (hu : u.pre.factor ≠ 0) (hv : v.pre.factor ≠ 0) : Near s t :=
  Or.inl ⟨u, v, identify_fast hs, identify_fast ht, hb, hu, hv⟩

theorem near_km_m : Near c!"km" c!"m" := near_fast fast_km fast_m rfl (by norm_num) (by norm_num)
theorem near_ms_s : Near c!"ms" c!"s" := near_fast fast_ms fast_s rfl (by norm_num) (by norm_num)

/-- The hypotheses are met by speeds in different units; the factor is a million. -/
example (b : Book) (order : List Str) :
    ∃ e0 e1, ofString c!"km / s" = .ok e0 ∧ ofString c!"m / ms" = .ok e1 ∧
      conversion b (env Real.pi order) realPow c!"km / s" c!"m / ms" = .ok (magnitudeRatio e0 e1) := by
  have hr : exprDiv [⟨1, c!"km", 1⟩, ⟨1, c!"s", -1⟩] [⟨1, c!"m", 1⟩, ⟨1, c!"ms", -1⟩]
      = .ok [⟨1, c!"km", 1⟩, ⟨1, c!"ms", 1⟩, ⟨1, c!"m", -1⟩, ⟨1, c!"s", -1⟩] := by decide +kernel
  have h0 : ofString c!"km / s" = .ok [⟨1, c!"km", 1⟩, ⟨1, c!"s", -1⟩] := by decide +kernel
  have h1 : ofString c!"m / ms" = .ok [⟨1, c!"m", 1⟩, ⟨1, c!"ms", -1⟩] := by decide +kernel
  refine ⟨_, _, h0, h1, ?_⟩
  refine c77_products_partial b order _ _ _ _ _ (convertStrings_compound order class_km_s (by decide))
    h0 h1 ?_ ?_ hr [(⟨1, c!"km", 1⟩, ⟨1, c!"m", -1⟩), (⟨1, c!"ms", 1⟩, ⟨1, c!"s", -1⟩)] (by simp)
    (by decide +kernel) ?_ ?_
  · refine ⟨⟨_, by simp, ?_, (by decide +kernel : reduce [⟨1, c!"km", 1⟩, ⟨1, c!"s", -1⟩] = .ok _)⟩, by simp, ?_⟩
    · decide
    · intro t ht _
      simp only [List.mem_cons, List.not_mem_nil, or_false] at ht
      rcases ht with rfl | rfl
      · exact ⟨⟨c!"km", [], rfl, by decide, by decide, by simp, by decide⟩, rfl⟩
      · exact ⟨⟨c!"s", [], rfl, by decide, by decide, by simp, by decide⟩, rfl⟩
  · refine ⟨⟨_, by simp, ?_, (by decide +kernel : reduce [⟨1, c!"m", 1⟩, ⟨1, c!"ms", -1⟩] = .ok _)⟩, by simp, ?_⟩
    · decide
    · intro t ht _
      simp only [List.mem_cons, List.not_mem_nil, or_false] at ht
      rcases ht with rfl | rfl
      · exact ⟨⟨c!"m", [], rfl, by decide, by decide, by simp, by decide⟩, rfl⟩
      · exact ⟨⟨c!"ms", [], rfl, by decide, by decide, by simp, by decide⟩, rfl⟩
  · intro p hp
    simp only [List.mem_cons, List.not_mem_nil, or_false] at hp
    rcases hp with rfl | rfl
    · exact ⟨by norm_num, near_km_m⟩
    · exact ⟨by norm_num, near_ms_s⟩
  · have hcl : ∀ s ∈ [c!"km", c!"m"], ∀ t ∈ [c!"ms", c!"s"], quantityClass s ≠ quantityClass t := by
      simp only [List.mem_cons, List.not_mem_nil, or_false, forall_eq_or_imp, forall_eq]
      rw [quantityClass_of fast_km, quantityClass_of fast_m, quantityClass_of fast_ms, quantityClass_of fast_s]
      decide +kernel
    intro t ht u hu he h2 h3
    simp only [pairTerms, List.flatMap_cons, List.flatMap_nil, List.append_nil, List.cons_append,
      List.nil_append, List.mem_cons, List.not_mem_nil, or_false] at ht hu
    rcases ht with rfl | rfl | rfl | rfl <;> rcases hu with rfl | rfl | rfl | rfl <;>
      first
        | (refine absurd he ?_; norm_num; done)
        | (refine absurd ?_ h2; simp; done)
        | (refine absurd ?_ h3; simp; done)
        | (refine hcl _ ?_ _ ?_ <;> simp <;> done)
        | (refine (hcl _ ?_ _ ?_).symm <;> simp)

end Verif.Metric
