import Mathlib.Data.List.Infix
import Verif.Symbolic.Termination

/-!
# Property C282: the names of a parsed expression are written in the text
-/

set_option linter.unusedSimpArgs false

namespace Verif.Symbolic

open Verif.Py

/-! ## Specification -/

/-- Letters followed by digits. -/
def IsName (b : List Char) : Prop :=
  ∃ l d, b = l ++ d ∧ l ≠ [] ∧ (∀ c ∈ l, isLetter c = true) ∧ ∀ c ∈ d, isDigit c = true

/-- The base of constants, or a name that is part of the text. -/
def WrittenIn (s b : List Char) : Prop := b = one ∨ IsName b ∧ b <:+: s

/-! ## Parts of a text -/

theorem opt_suffix {p : Pat (List Char)} (hp : Sound (fun _ => True) p) {s : List Char} {m : Option (List Char) × List Char}
    (h : m ∈ Pat.opt p s) : m.2 <:+ s := by
  rcases mem_opt.1 h with ⟨k, hk, rfl⟩ | rfl
  · exact ⟨k.1, (hp s k hk).1.symm⟩
  · exact List.suffix_rfl

theorem basePat_name {s : List Char} {m : List Char × List Char} (h : m ∈ basePat s) : IsName m.1 := by
  obtain ⟨a, ha, b, hb, rfl⟩ := mem_cat.1 h
  refine ⟨a.1, b.1, rfl, ?_, ?_, ?_⟩
  · obtain ⟨a', ha', b', hb', rfl⟩ := mem_cat.1 ha
    cases s with
    | nil => simp [Pat.char] at ha'
    | cons c t =>
      simp only [Pat.char] at ha'
      split at ha'
      · simp at ha'; subst ha'; simp
      · simp at ha'
  · exact (sound_cat (sound_char (fun _ h => h)) (sound_star (fun _ h => h)) s a ha).2
  · exact (sound_star (f := fun c => isDigit c = true) (fun _ h => h) _ b hb).2

theorem variablePat_parts {s : List Char} {m} (h : m ∈ variablePat s) : IsName m.1.1.2 ∧ m.1.1.2 <:+: s ∧ m.2 <:+ s := by
  obtain ⟨a, ha, b, hb, rfl⟩ := mem_seq.1 h
  obtain ⟨a', ha', b', hb', rfl⟩ := mem_seq.1 ha
  have h1 := opt_suffix (sound_true_of sound_rational) ha'
  have h2 := (sound_basePat _ _ hb').1
  have h3 := opt_suffix sound_exponentPat hb
  refine ⟨basePat_name hb', ?_, ?_⟩
  · exact (List.IsPrefix.isInfix ⟨b'.2, h2.symm⟩).trans h1.isInfix
  · exact h3.trans (List.IsSuffix.trans ⟨b'.1, h2.symm⟩ h1)

theorem constantPat_suffix {s : List Char} {m} (h : m ∈ constantPat s) : m.2 <:+ s := by
  obtain ⟨a, ha, b, hb, rfl⟩ := mem_seq.1 h
  have h1 := (sound_rational _ _ ha).1
  exact (opt_suffix sound_exponentPat hb).trans ⟨a.1, h1.symm⟩

theorem writtenIn_mk {s b : List Char} (h : WrittenIn s b) (c e : Rat) : WrittenIn s (mkOperand c b e).base := by
  unfold mkOperand
  simp only
  split
  · exact Or.inl rfl
  · exact h

theorem WrittenIn.mono {s t b : List Char} (h : WrittenIn s b) (hst : s <:+: t) : WrittenIn t b :=
  h.imp id (fun h => ⟨h.1, h.2.trans hst⟩)

theorem matchSimplex_written {s : List Char} {t rest} (h : matchSimplex s = .ok (some (t, rest))) :
    WrittenIn s t.base ∧ rest <:+ s := by
  have hv : ∀ v, variablePat.match s = some v → (do return some (← buildVariable v.1, v.2) : Res (Option (Term × List Char)))
      = .ok (some (t, rest)) → WrittenIn s t.base ∧ rest <:+ s := fun v hv he => by
    obtain ⟨x, hx, he⟩ := bind_ok_iff.1 he
    simp only [pure_ok, Option.some.injEq, Prod.mk.injEq] at he
    obtain ⟨rfl, rfl⟩ := he
    obtain ⟨p1, p2, p3⟩ := variablePat_parts (mem_of_head? hv)
    refine ⟨?_, p3⟩
    unfold buildVariable at hx
    obtain ⟨_, _, hx⟩ := bind_ok_iff.1 hx
    obtain ⟨_, _, hx⟩ := bind_ok_iff.1 hx
    rw [pure_ok] at hx
    subst hx
    exact writtenIn_mk (Or.inr ⟨p1, p2⟩) _ _
  have hc : ∀ c, constantPat.match s = some c → (do return some (← buildConstant c.1, c.2) : Res (Option (Term × List Char)))
      = .ok (some (t, rest)) → WrittenIn s t.base ∧ rest <:+ s := fun c hc he => by
    obtain ⟨x, hx, he⟩ := bind_ok_iff.1 he
    simp only [pure_ok, Option.some.injEq, Prod.mk.injEq] at he
    obtain ⟨rfl, rfl⟩ := he
    refine ⟨?_, constantPat_suffix (mem_of_head? hc)⟩
    unfold buildConstant at hx
    obtain ⟨_, _, hx⟩ := bind_ok_iff.1 hx
    obtain ⟨_, _, hx⟩ := bind_ok_iff.1 hx
    obtain ⟨_, _, hx⟩ := bind_ok_iff.1 hx
    obtain ⟨_, _, hx⟩ := bind_ok_iff.1 hx
    rw [pure_ok] at hx
    subst hx
    exact writtenIn_mk (Or.inl rfl) _ _
  unfold matchSimplex at h
  split at h
  · cases h
  · next v hv' _ => exact hv v hv' h
  · next c _ hc' => exact hc c hc' h
  · next v c hv' hc' =>
    split at h
    · exact hc c hc' h
    · exact hv v hv' h

theorem matchComplex_written {s : List Char} {o : Operand} {rest : List Char} (h : matchComplex s = .ok (some (o, rest))) :
    (o.base = one ∨ o.base <:+: s) ∧ rest <:+ s := by
  unfold matchComplex at h
  split at h
  · cases h
  · next i0 stop hb =>
    have hbase : ∀ c x, (mkOperand c ((s.take (stop - 1)).drop (i0 + 1)) x).base = one ∨
        (mkOperand c ((s.take (stop - 1)).drop (i0 + 1)) x).base <:+: s := by
      intro c x
      simp only [mkOperand]
      split
      · exact Or.inl rfl
      · exact Or.inr ((List.drop_suffix _ _).isInfix.trans (List.take_prefix _ _).isInfix)
    obtain ⟨front, _, h⟩ := bind_ok_iff.1 h
    simp only at h
    split at h
    · simp [pure_ok] at h
    · split at h
      · next x rest' hx =>
        obtain ⟨e, _, h⟩ := bind_ok_iff.1 h
        simp only [pure_ok, Option.some.injEq, Prod.mk.injEq] at h
        obtain ⟨rfl, rfl⟩ := h
        refine ⟨hbase _ _, ?_⟩
        have := (sound_exponentPat _ _ (mem_of_head? hx)).1
        exact List.IsSuffix.trans ⟨x, this.symm⟩ (List.drop_suffix _ _)
      · simp only [pure_ok, Option.some.injEq, Prod.mk.injEq] at h
        obtain ⟨rfl, rfl⟩ := h
        exact ⟨hbase _ _, List.drop_suffix _ _⟩

theorem strip_infix (s : List Char) : strip s <:+: s := by
  unfold strip
  have h : ∀ t : List Char, (t.reverse.dropWhile isSpace).reverse <+: t := fun t => by
    have := List.dropWhile_suffix (l := t.reverse) isSpace
    have := List.reverse_prefix.2 this
    simpa using this
  exact (h _).isInfix.trans (List.dropWhile_suffix _).isInfix

/-- What a part contributes is written in the text. -/
def Part.Within (s : List Char) : Part → Prop
  | .term t => WrittenIn s t.base
  | .group o => o.base = one ∨ o.base <:+: s

theorem within_mono {s t : List Char} {p : Part} (h : p.Within s) (hst : s <:+: t) : p.Within t := by
  cases p with
  | term x => exact WrittenIn.mono h hst
  | group o => exact h.imp id (fun h => h.trans hst)

theorem parseOperand_written {s : List Char} {p : Part} {rest : List Char} (h : parseOperand s = .ok (some (p, rest))) :
    p.Within s ∧ rest <:+: s := by
  have hs := strip_infix s
  unfold parseOperand at h
  simp only at h
  obtain ⟨a, ha, h⟩ := bind_ok_iff.1 h
  split at h
  · simp only [pure_ok, Option.some.injEq, Prod.mk.injEq] at h
    obtain ⟨rfl, rfl⟩ := h
    obtain ⟨h1, h2⟩ := matchSimplex_written ha
    exact ⟨WrittenIn.mono h1 hs, h2.isInfix.trans hs⟩
  · obtain ⟨b, hb, h⟩ := bind_ok_iff.1 h
    split at h
    · simp only [pure_ok, Option.some.injEq, Prod.mk.injEq] at h
      obtain ⟨rfl, rfl⟩ := h
      obtain ⟨h1, h2⟩ := matchComplex_written hb
      exact ⟨h1.imp id (fun h => h.trans hs), h2.isInfix.trans hs⟩
    · simp [pure_ok] at h

theorem partPow_within {s : List Char} {p q : Part} {x : Rat} (hp : p.Within s) (h : p.pow x = .ok q) : q.Within s := by
  unfold Part.pow at h
  cases p with
  | term t =>
    obtain ⟨a, ha, h⟩ := bind_ok_iff.1 h
    rw [pure_ok] at h; subst h
    unfold Operand.pow at ha
    obtain ⟨c, _, ha⟩ := bind_ok_iff.1 ha
    rw [pure_ok] at ha; subst ha
    exact writtenIn_mk hp _ _
  | group o =>
    obtain ⟨a, ha, h⟩ := bind_ok_iff.1 h
    rw [pure_ok] at h; subst h
    unfold Operand.pow at ha
    obtain ⟨c, _, ha⟩ := bind_ok_iff.1 ha
    rw [pure_ok] at ha; subst ha
    show (if o.base = [] then one else o.base) = one ∨ _
    simp only [mkOperand]
    split
    · exact Or.inl rfl
    · exact hp

theorem parseOperator_suffix {s rest : List Char} {o : Op} (h : parseOperator s = some (o, rest)) : rest <:+ s := by
  have hi : ∀ (t a : Char) m, (infixPat t a).match s = some m → m.2 <:+ s := fun t a m hm => by
    have hm := (List.mem_filter.1 (mem_of_head? hm)).1
    exact ⟨m.1, ((sound_cat (f := fun _ => True) (sound_star (fun _ _ => trivial))
      (sound_cat (sound_char (fun _ _ => trivial)) (sound_star (fun _ _ => trivial))) s m hm).1).symm⟩
  unfold parseOperator at h
  split at h
  · next hm => injection h with h; injection h with _ h; subst h; exact hi _ _ _ hm
  · split at h
    · next hm => injection h with h; injection h with _ h; subst h; exact hi _ _ _ hm
    · split at h
      · next m hm =>
        injection h with h; injection h with _ h; subst h
        exact ⟨m.1, ((sound_cat (f := fun _ => True) (sound_star (fun _ _ => trivial))
          (sound_cat (sound_char (fun _ _ => trivial)) (sound_cat (sound_char (fun _ _ => trivial))
          (sound_cat (sound_char (fun _ _ => trivial)) (sound_cat (sound_char (fun _ _ => trivial))
          (sound_star (fun _ _ => trivial)))))) s m (mem_of_head? hm)).1).symm⟩
      · cases h

theorem parseStep_written {strict : Bool} {power : Rat} {prev : Option Op} {s : List Char} {r : Part × Option Op × List Char}
    (h : parseStep strict power prev s = .ok r) : r.1.Within s ∧ r.2.2 <:+: s := by
  unfold parseStep at h
  obtain ⟨⟨op, s1⟩, h1, h⟩ := bind_ok_iff.1 h
  have hs1 : s1 <:+: s := by
    unfold getOperator at h1
    split at h1
    · injection h1 with h1
      injection h1 with _ h1
      rw [← h1]
    · next o r hop =>
      split at h1
      · cases h1
      · injection h1 with h1
        injection h1 with _ h1
        rw [← h1]
        exact (parseOperator_suffix hop).isInfix
  simp only at h
  obtain ⟨⟨p', rest⟩, hb, h⟩ := bind_ok_iff.1 h
  obtain ⟨new, hnew, h⟩ := bind_ok_iff.1 h
  rw [pure_ok] at h
  subst h
  simp only at hnew ⊢
  unfold getOperand at hb
  obtain ⟨b, hb, h⟩ := bind_ok_iff.1 hb
  rcases b with _ | ⟨p0, r0⟩
  · cases h
  · simp only at h
    obtain ⟨w1, w2⟩ := parseOperand_written hb
    obtain ⟨p1, hp', h⟩ := bind_ok_iff.1 h
    rw [pure_ok] at h
    injection h with h2 h3
    subst h2; subst h3
    have hp1 := partPow_within w1 hp'
    refine ⟨within_mono ?_ hs1, w2.trans hs1⟩
    unfold computeOperand at hnew
    rcases op with _ | o
    · injection hnew with hnew; subst hnew; exact hp1
    · simp only [evaluate] at hnew
      cases o with
      | multiply => injection hnew with hnew; subst hnew; exact hp1
      | divide => exact partPow_within hp1 hnew
      | sqrt => exact partPow_within hp1 hnew

theorem parseLoop_written (strict : Bool) (power : Rat) : ∀ (n : Nat) (prev : Option Op) (s : List Char) (ps : List Part),
    parseLoop strict power n prev s = .ok ps → ∀ p ∈ ps, p.Within s := by
  intro n
  induction n with
  | zero =>
    intro prev s ps h
    cases s with
    | nil => simp [parseLoop] at h; subst h; simp
    | cons c s => simp [parseLoop] at h
  | succ n ih =>
    intro prev s ps h p hp
    cases s with
    | nil => simp [parseLoop] at h; subst h; simp at hp
    | cons c s =>
      simp only [parseLoop] at h
      obtain ⟨r, h1, h⟩ := bind_ok_iff.1 h
      obtain ⟨more, h2, h⟩ := bind_ok_iff.1 h
      rw [pure_ok] at h; subst h
      obtain ⟨w1, w2⟩ := parseStep_written h1
      rcases List.mem_cons.1 hp with rfl | hp
      · exact w1
      · exact within_mono (ih _ _ _ h2 p hp) w2

theorem not_name_in_one {b : List Char} (h : WrittenIn one b) : b = one := by
  rcases h with h | ⟨⟨l, d, rfl, hl, hal, -⟩, h⟩
  · exact h
  · exfalso
    cases l with
    | nil => exact hl rfl
    | cons c l =>
      have : c ∈ one := h.subset (by simp)
      rw [one, List.mem_singleton] at this
      subst this
      exact absurd (hal '1' (by simp)) (by decide)

theorem mapM_mem {α β : Type} {f : α → Res β} {xs : List α} {ys : List β} (h : xs.mapM f = .ok ys) {y : β} (hy : y ∈ ys) :
    ∃ x ∈ xs, f x = .ok y := by
  induction xs generalizing ys with
  | nil => simp [pure, Except.pure] at h; subst h; simp at hy
  | cons x xs ih =>
    rw [List.mapM_cons] at h
    obtain ⟨a, ha, h⟩ := bind_ok_iff.1 h
    obtain ⟨b, hb, h⟩ := bind_ok_iff.1 h
    rw [pure_ok] at h; subst h
    rcases List.mem_cons.1 hy with rfl | hy
    · exact ⟨x, by simp, ha⟩
    · obtain ⟨z, hz, e⟩ := ih hb hy
      exact ⟨z, by simp [hz], e⟩

theorem resolve_written (strict : Bool) : ∀ (n : Nat) (o : Operand) (ts : List Term), resolve strict n o = .ok ts →
    ∀ t ∈ ts, WrittenIn o.base t.base := by
  intro n
  induction n with
  | zero => intro o ts h; simp [resolve] at h
  | succ n ih =>
    intro o ts h t ht
    simp only [resolve] at h
    obtain ⟨parts, h1, h⟩ := bind_ok_iff.1 h
    obtain ⟨terms, h2, h⟩ := bind_ok_iff.1 h
    rw [pure_ok] at h; subst h
    rcases List.mem_append.1 ht with ht | ht
    · obtain ⟨g, hg, htg⟩ := List.mem_flatten.1 ht
      obtain ⟨p, hp, e⟩ := mapM_mem h2 hg
      have w := parseLoop_written _ _ _ _ _ _ h1 p hp
      cases p with
      | term x =>
        injection e with e
        subst e
        rw [List.mem_singleton] at htg
        subst htg
        exact w
      | group x =>
        have := ih x g e t htg
        rcases w with w | w
        · rw [w] at this
          exact Or.inl (not_name_in_one this)
        · exact this.mono w
    · rw [List.mem_singleton] at ht
      subst ht
      exact writtenIn_mk (Or.inl rfl) _ _

theorem collect_keys (ts : List Term) (b : Name) (h : b ∈ (collect ts).keys) : ∃ t ∈ ts, t.base = b := by
  have gen : ∀ (ts : List Term) (d : Dict Name (Rat × Rat)), b ∈ (ts.foldl reduceStep d).keys → b ∈ d.keys ∨ ∃ t ∈ ts, t.base = b := by
    intro ts
    induction ts with
    | nil => intro d h; exact Or.inl h
    | cons t ts ih =>
      intro d h
      rw [List.foldl_cons] at h
      rcases ih _ h with h | ⟨x, hx, e⟩
      · have : b ∈ d.keys ∨ b = t.base := by
          unfold reduceStep at h
          split at h
          · exact ((Dict.mem_keys_set _ _ _ _).1 h).symm
          · exact ((Dict.mem_keys_set _ _ _ _).1 h).symm
        rcases this with h | h
        · exact Or.inl h
        · exact Or.inr ⟨t, by simp, h.symm⟩
      · exact Or.inr ⟨x, by simp [hx], e⟩
  rcases gen ts [] h with h | h
  · simp [Dict.keys] at h
  · exact h

theorem reduce_bases {ts r : List Term} (h : reduce ts = .ok r) : ∀ t ∈ r, t.base = one ∨ ∃ u ∈ ts, u.base = t.base := by
  have hv : ∀ t ∈ sortTerms (variablesOf (collect ts)), t.base = one ∨ ∃ u ∈ ts, u.base = t.base := by
    intro t ht
    unfold sortTerms at ht
    rw [List.mem_insertionSort, List.mem_insertionSort] at ht
    unfold variablesOf at ht
    obtain ⟨p, hp, rfl⟩ := List.mem_map.1 ht
    have hp := (List.mem_filter.1 hp).1
    unfold mkOperand
    simp only
    split
    · exact Or.inl rfl
    · exact Or.inr (collect_keys ts p.1 (List.mem_map.2 ⟨p, hp, rfl⟩))
  unfold reduce at h
  simp only at h
  split at h
  · cases h
  · split at h
    · injection h with h; subst h
      intro t ht
      rw [List.mem_singleton] at ht
      subst ht
      exact Or.inl (by simp [mkOperand, one])
    · split at h
      · injection h with h; subst h
        exact hv
      · injection h with h; subst h
        intro t ht
        rcases List.mem_append.1 ht with ht | ht
        · rw [List.mem_singleton] at ht
          subst ht
          exact Or.inl (by simp [mkOperand, one])
        · exact hv t ht

/-- **C282.** For all texts: every term that the parser finds, and every term of the expression of the text, is a constant or has for
its base a name, letters followed by digits, that is written in the text. -/
theorem c282_names (s : List Char) :
    (∀ strict ts, parse strict s = .ok ts → ∀ t ∈ ts, WrittenIn s t.base) ∧
    (∀ ts, ofString s = .ok ts → ∀ t ∈ ts, WrittenIn s t.base) := by
  have hp : ∀ (s : List Char) strict ts, parse strict s = .ok ts → ∀ t ∈ ts, WrittenIn s t.base := by
    intro s strict ts h t ht
    have := resolve_written strict _ _ _ h t ht
    simp only [mkOperand] at this
    split at this
    · exact Or.inl (not_name_in_one this)
    · exact this
  refine ⟨hp s, fun ts h t ht => ?_⟩
  unfold ofString at h
  obtain ⟨us, h1, h⟩ := bind_ok_iff.1 h
  rcases reduce_bases h t ht with e | ⟨u, hu, e⟩
  · exact Or.inl e
  · have := hp _ _ _ h1 u hu
    rw [e] at this
    split at this
    · exact Or.inl (not_name_in_one this)
    · exact this

/-- Names with digits, coefficients, roots and brackets. -/
example : ofString "2a1^2 / (b * sqrt(c3))".toList
    = .ok [⟨2, one, 1⟩, ⟨1, ['a', '1'], 2⟩, ⟨1, ['b'], -1⟩, ⟨1, ['c', '3'], -1⟩, ⟨1, ['s', 'q', 'r', 't'], -1⟩] := by decide +kernel

end Verif.Symbolic
