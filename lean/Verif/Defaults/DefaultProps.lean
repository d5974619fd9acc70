import Verif.Defaults.JsonProps
import Verif.Runtime.EvalProps

/-!
# The packaged defaults

Every parameter has a value (C127).
-/

set_option linter.unusedSimpArgs false

namespace Verif.Defaults

open Verif.Py Verif.Runtime

/-- The packaged `_CONFIGURATION_C` as the runtime sees it: the text of the default and the type
(runtime.json 43-712; runtime.py 389-402). -/
def shippedReference : Dict Str (Str × Typ) :=
  configEntries.map (fun e => (e.1, (e.2.default, modeType e.2.mode)))

/-- The parameters whose defaults are not plain values of their type. -/
def derived : List Str :=
  [c!"epCalcStartTime", c!"idealShockInitTime", c!"simStopTime", c!"rigidityPower", c!"omegaSun",
   c!"numNodesPerStream"]

/-- Reading a text as a plain value of the given type. -/
def plainValue (s : Str) : Typ → Option (Val Rat)
  | .int => (decimalInt s).map .num
  | .float => (decimalFloat s).map .num
  | .str => some (.text s)
  | .list => (decimalList s).map .list

/-- A parameter that the user has not set: there is no entry, or it is empty. -/
def Unset (user : Dict Str Str) (n : Str) : Prop := user.get? n = none ∨ user.get? n = some []

/-- Every entry of the user for a parameter in the database is a plain value of its type. -/
def Readable (user : Dict Str Str) : Prop :=
  ∀ n s d t, user.get? n = some s → s ≠ [] → shippedReference.get? n = some (d, t) →
    (plainValue s t).isSome

theorem reads_of_plain {ref user base} {s : Str} {t : Typ} {v : Val Rat}
    (h : plainValue s t = some v) : (rationalParams ref user base).Reads s t v := by
  cases t with
  | int =>
    simp only [plainValue, Option.map_eq_some_iff] at h
    obtain ⟨x, hx, rfl⟩ := h; exact ⟨x, hx, rfl⟩
  | float =>
    simp only [plainValue, Option.map_eq_some_iff] at h
    obtain ⟨x, hx, rfl⟩ := h; exact ⟨x, hx, rfl⟩
  | str => simp only [plainValue, Option.some.injEq] at h; exact h.symm
  | list =>
    simp only [plainValue, Option.map_eq_some_iff] at h
    obtain ⟨x, hx, rfl⟩ := h; exact ⟨x, hx, rfl⟩

/-- The whole table: names are not numerals, nor special. -/
theorem names_plain : ∀ e ∈ shippedReference, decimalInt e.1 = none ∧ decimalFloat e.1 = none
    ∧ e.1 ≠ c!"N_PROCS" ∧ e.1 ≠ c!"third" := by decide +kernel

/-- The whole table: defaults are plain values of the right type, with six exceptions. -/
theorem defaults_plain : ∀ e ∈ shippedReference, e.1 ∉ derived → (plainValue e.2.1 e.2.2).isSome := by
  decide +kernel

section
variable (user : Dict Str Str) (base : Dict Str Rat)

local notation "PP" => rationalParams shippedReference user base

theorem plainName_of {n : Str} (h1 : decimalInt n = none) (h2 : decimalFloat n = none)
    (h3 : n ≠ c!"N_PROCS") (h4 : n ≠ c!"third") : (PP).PlainName n := by
  refine ⟨fun x hx => ?_, h3, h4⟩
  unfold Params.cast at hx
  rw [show (PP).readInt n = decimalInt n from rfl, h1] at hx
  rw [show (PP).readFloat n = decimalFloat n from rfl, h2] at hx
  cases hx

theorem known_plain {n d : Str} {t : Typ} (h : shippedReference.get? n = some (d, t)) :
    (PP).PlainName n := by
  obtain ⟨h1, h2, h3, h4⟩ := names_plain _ (Dict.mem_of_get? h)
  exact plainName_of user base h1 h2 h3 h4

theorem getArgument_known {n d : Str} {t : Typ} (h : shippedReference.get? n = some (d, t)) :
    (PP).getArgument n = some ((PP).convert (orDefault (user.get? n) d) t) := by
  unfold Params.getArgument
  rw [show (PP).reference.get? n = some (d, t) from h]
  rfl

theorem eval_reads {n d : Str} {t : Typ} {v : Val Rat} (h : shippedReference.get? n = some (d, t))
    (hv : plainValue (orDefault (user.get? n) d) t = some v) (f : Nat) :
    evaluate PP (f + 1) n = .ok v := by
  rw [evaluate, evaluateWith_name (known_plain user base h), getArgument_known user base h,
    convert_reads (reads_of_plain hv)]

theorem eval_again {n d : Str} {t : Typ} (h : shippedReference.get? n = some (d, t))
    (hu : Unset user n) (hd : (PP).Unreadable d t) (f : Nat) :
    evaluate PP (f + 1) n = evaluate PP f d := by
  have : orDefault (user.get? n) d = d := by
    rcases hu with h | h <;> rw [h] <;> rfl
  rw [evaluate, evaluateWith_name (known_plain user base h), getArgument_known user base h, this,
    convert_unreadable hd]
  rfl

/-- Looking up a known parameter is evaluating its name. -/
theorem lookup_eval {n d : Str} {t : Typ} (h : shippedReference.get? n = some (d, t)) (f : Nat) :
    (PP).lookup f n = evaluate PP f n := by
  unfold Params.lookup
  rw [if_pos]
  rw [Dict.has_eq_isSome, show (PP).reference.get? n = some (d, t) from h]; rfl

variable (hnames : ∀ n x, base.get? n = some x → ∀ c ∈ n, isWord c = true)
include hnames

theorem eval_free {s : Str} {c : Char} (hc : c ∈ s) (hw : isWord c = false)
    (h1 : decimalInt s = none) (h2 : decimalFloat s = none) (h3 : shippedReference.get? s = none)
    (h4 : s ≠ c!"N_PROCS") (h5 : s ≠ c!"third") (f : Nat) :
    evaluate PP (f + 1) s = resolve PP (evaluate PP f) s := by
  have hb : base.get? s = none := by
    cases hb : base.get? s with
    | none => rfl
    | some x => rw [hnames s x hb c hc] at hw; cases hw
  have hg : (PP).getArgument s = none := by
    unfold Params.getArgument
    rw [show (PP).reference.get? s = none from h3]
    simp only
    rw [show (PP).basetypes.get? s = none from hb]
  rw [evaluate, evaluateWith_name (plainName_of user base h1 h2 h4 h5), hg]
  rfl

/-- A member of the C structure has the value of the parameter. -/
theorem eval_member {s n : Str} (hs : s = c!"config." ++ n) (hm : structMember s = some n)
    (h1 : decimalInt s = none) (h2 : decimalFloat s = none) (h3 : shippedReference.get? s = none)
    (h4 : s ≠ c!"N_PROCS") (h5 : s ≠ c!"third") (f : Nat) :
    evaluate PP (f + 1) s = evaluate PP f n := by
  rw [eval_free user base hnames (c := '.') (by rw [hs]; simp) (by decide) h1 h2 h3 h4 h5]
  unfold resolve
  rw [hm]

end

/-- **C127.** For every configuration file whose entries are plain values, and every table of constants
with word names that defines `TAU` and a nonzero `MAS_TIME_NORM`: every parameter of the packaged
database has the value of the user's entry if there is a nonempty one, and otherwise the value of its
default.  `epCalcStartTime` and `idealShockInitTime` then follow `simStartTime`; `simStopTime` is
`simStartTime` plus `tDel` (unless these add to zero); `rigidityPower` is a third; `omegaSun` is
`0.004144/MAS_TIME_NORM*TAU`, where the number is the nearest float; and `numNodesPerStream`, which is the number of processors, has no
value. -/
theorem c127_defaults (user : Dict Str Str) (base : Dict Str Rat) (τ m : Rat)
    (hτ : base.get? c!"TAU" = some τ) (hm : base.get? c!"MAS_TIME_NORM" = some m) (hm0 : m ≠ 0)
    (hnames : ∀ n x, base.get? n = some x → ∀ c ∈ n, isWord c = true) (hu : Readable user) :
    let P := rationalParams shippedReference user base
    ∃ start del, (∀ f, P.lookup (f + 5) c!"simStartTime" = .ok (.num start))
      ∧ (∀ f, P.lookup (f + 5) c!"tDel" = .ok (.num del))
      ∧ ∀ n d t f, shippedReference.get? n = some (d, t) →
        (∀ s v, user.get? n = some s → s ≠ [] → plainValue s t = some v → P.lookup (f + 5) n = .ok v)
        ∧ (Unset user n →
            (n = c!"epCalcStartTime" ∨ n = c!"idealShockInitTime" → P.lookup (f + 5) n = .ok (.num start))
          ∧ (n = c!"simStopTime" → start + del ≠ 0 → P.lookup (f + 5) n = .ok (.num (start + del)))
          ∧ (n = c!"rigidityPower" → P.lookup (f + 5) n = .ok (.num (1 / 3)))
          ∧ (n = c!"omegaSun" → ∃ x, toFloat 0.004144 = .ok x ∧ P.lookup (f + 5) n = .ok (.num (x / m * τ)))
          ∧ (n = c!"numNodesPerStream" → P.lookup (f + 5) n = .ok .nothing)
          ∧ (n ∉ derived → ∃ v, plainValue d t = some v ∧ P.lookup (f + 5) n = .ok v)) := by
  intro P
  have hplain : ∀ n d t, shippedReference.get? n = some (d, t) → n ∉ derived →
      ∃ v, plainValue (orDefault (user.get? n) d) t = some v := by
    intro n d t h hd
    cases hn : user.get? n with
    | none => exact Option.isSome_iff_exists.1 (defaults_plain _ (Dict.mem_of_get? h) hd)
    | some s =>
      cases s with
      | nil => exact Option.isSome_iff_exists.1 (defaults_plain _ (Dict.mem_of_get? h) hd)
      | cons c s => exact Option.isSome_iff_exists.1 (hu n (c :: s) d t hn (by simp) h)
  have hnum : ∀ n d, shippedReference.get? n = some (d, .float) → n ∉ derived →
      ∃ x, ∀ f, evaluate P (f + 1) n = .ok (.num x) := by
    intro n d h hd
    obtain ⟨v, hv⟩ := hplain n d .float h hd
    have hv' := hv
    simp only [plainValue, Option.map_eq_some_iff] at hv'
    obtain ⟨x, _, rfl⟩ := hv'
    exact ⟨x, fun f => eval_reads user base h hv f⟩
  have r1 : shippedReference.get? c!"simStartTime" = some (c!"0.0", .float) := by decide +kernel
  have r2 : shippedReference.get? c!"tDel" = some (c!"0.01041666666667", .float) := by decide +kernel
  have r3 : shippedReference.get? c!"epCalcStartTime" = some (c!"config.simStartTime", .float) := by
    decide +kernel
  have r4 : shippedReference.get? c!"idealShockInitTime" = some (c!"config.simStartTime", .float) := by
    decide +kernel
  have r5 : shippedReference.get? c!"simStopTime"
      = some (c!"config.simStartTime + config.tDel", .float) := by decide +kernel
  have r6 : shippedReference.get? c!"rigidityPower" = some (c!"third", .float) := by decide +kernel
  have r7 : shippedReference.get? c!"omegaSun" = some (c!"(0.004144/MAS_TIME_NORM)*TAU", .float) := by
    decide +kernel
  have r8 : shippedReference.get? c!"numNodesPerStream" = some (c!"N_PROCS", .int) := by decide +kernel
  obtain ⟨start, hstart⟩ := hnum _ _ r1 (by decide +kernel)
  obtain ⟨del, hdel⟩ := hnum _ _ r2 (by decide +kernel)
  have mstart : ∀ f, evaluate P (f + 2) c!"config.simStartTime" = .ok (.num start) := by
    intro f
    rw [eval_member user base hnames (n := c!"simStartTime") (by decide) (by decide) (by decide +kernel)
      (by decide +kernel) (by decide +kernel) (by decide) (by decide)]
    exact hstart f
  have mdel : ∀ f, evaluate P (f + 2) c!"config.tDel" = .ok (.num del) := by
    intro f
    rw [eval_member user base hnames (n := c!"tDel") (by decide) (by decide) (by decide +kernel)
      (by decide +kernel) (by decide +kernel) (by decide) (by decide)]
    exact hdel f
  have unread : ∀ s, decimalFloat s = none → P.Unreadable s .float := fun s h => h
  refine ⟨start, del, fun f => (lookup_eval user base r1 _).trans (hstart _),
    fun f => (lookup_eval user base r2 _).trans (hdel _), ?_⟩
  intro n d t f h
  have hl : ∀ k, P.lookup k n = evaluate P k n := fun k => lookup_eval user base h k
  refine ⟨?_, ?_⟩
  · intro s v hs hs0 hv
    rw [hl]
    refine eval_reads user base h ?_ _
    rw [hs]
    cases s with
    | nil => exact absurd rfl hs0
    | cons c s => exact hv
  · intro hun
    refine ⟨?_, ?_, ?_, ?_, ?_, ?_⟩
    · rintro (rfl | rfl)
      · rw [hl, eval_again user base r3 hun (unread _ (by decide +kernel))]
        exact mstart _
      · rw [hl, eval_again user base r4 hun (unread _ (by decide +kernel))]
        exact mstart _
    · rintro rfl h0
      rw [hl, eval_again user base r5 hun (unread _ (by decide +kernel)),
        eval_free user base hnames (c := ' ') (by decide) (by decide) (by decide +kernel)
          (by decide +kernel) (by decide +kernel) (by decide) (by decide)]
      have hs : structMember c!"config.simStartTime + config.tDel" = none := by decide
      have hsum : computeSum (evaluate P (f + 3)) c!"config.simStartTime + config.tDel"
          = .ok (some (.num (start + del))) := by
        have hsplit : (splitChar '+' c!"config.simStartTime + config.tDel").map strip
            = [c!"config.simStartTime", c!"config.tDel"] := by decide +kernel
        unfold computeSum
        rw [if_pos (by decide)]
        unfold sumTerms
        rw [hsplit]
        simp only [evalAll, mstart (f + 1), mdel (f + 1)]
        simp [addVal, Except.map]
      unfold resolve
      rw [hs, hsum]
      simp [Val.truth, h0]
    · rintro rfl
      rw [hl, eval_again user base r6 hun (unread _ (by decide +kernel)), evaluate, evaluateWith]
      have hc : P.cast c!"third" = none := by
        have : (rationalParams [] [] []).cast c!"third" = none := by decide +kernel
        exact this
      rw [hc]
      rfl
    · rintro rfl
      refine ⟨2388853357545387 / 576460752303423488, by decide +kernel, ?_⟩
      rw [hl, eval_again user base r7 hun (unread _ (by decide +kernel)),
        eval_free user base hnames (c := '*') (by decide) (by decide) (by decide +kernel)
          (by decide +kernel) (by decide +kernel) (by decide) (by decide)]
      have hs : structMember c!"(0.004144/MAS_TIME_NORM)*TAU" = none := by decide
      have hsum : computeSum (evaluate P (f + 3)) c!"(0.004144/MAS_TIME_NORM)*TAU" = .ok none := by
        unfold computeSum
        rw [if_neg (by decide), if_neg (by decide)]
      have hterms : Symbolic.ofString c!"(0.004144/MAS_TIME_NORM)*TAU"
          = .ok [⟨2388853357545387 / 576460752303423488, c!"1", 1⟩, ⟨1, c!"TAU", 1⟩, ⟨1, c!"MAS_TIME_NORM", -1⟩] := by
        decide +kernel
      have e1 : evaluate P (f + 3) c!"1" = .ok (.num 1) := by
        rw [evaluate, evaluateWith]
        have hc : P.cast c!"1" = some 1 := by
          have : (rationalParams [] [] []).cast c!"1" = some 1 := by decide +kernel
          exact this
        rw [hc]
        simp [truthy]
      have ebase : ∀ s x, base.get? s = some x → shippedReference.get? s = none → P.PlainName s →
          evaluate P (f + 3) s = .ok (.num x) := by
        intro s x hb hr hp
        rw [evaluate, evaluateWith_name hp]
        have hg : P.getArgument s = some (.done (.num x)) := by
          unfold Params.getArgument
          rw [show P.reference.get? s = none from hr]
          simp only
          rw [show P.basetypes.get? s = some x from hb]
        rw [hg]
      have e2 := ebase _ _ hτ (by decide +kernel) (plainName_of user base (by decide +kernel)
        (by decide +kernel) (by decide) (by decide))
      have e3 := ebase _ _ hm (by decide +kernel) (plainName_of user base (by decide +kernel)
        (by decide +kernel) (by decide) (by decide))
      have p1 : P.pow 1 1 = .ok 1 := by
        show ratPow 1 1 = _
        decide +kernel
      have p2 : P.pow τ 1 = .ok τ := by
        show ratPow τ 1 = _
        unfold ratPow
        simp
      have p3 : P.pow m (-1) = .ok (m⁻¹) := by
        show ratPow m (-1) = _
        unfold ratPow
        simp [hm0]
      show resolve P (evaluate P (f + 3)) _ = _
      unfold resolve
      rw [hs, hsum]
      simp only
      unfold resolveProduct
      rw [if_pos (by decide), hterms]
      simp only [productVal, termVal, e1, e2, e3, p1, p2, p3, Except.map]
      congr 2
      push_cast
      field_simp
    · rintro rfl
      have hd : P.Unreadable c!"N_PROCS" .int := by
        have : decimalInt c!"N_PROCS" = none := by decide +kernel
        exact this
      rw [hl, eval_again user base r8 hun hd, evaluate, evaluateWith]
      have hc : P.cast c!"N_PROCS" = none := by
        have : (rationalParams [] [] []).cast c!"N_PROCS" = none := by decide +kernel
        exact this
      rw [hc]
      rfl
    · intro hd
      have hv := Option.isSome_iff_exists.1 (defaults_plain _ (Dict.mem_of_get? h) hd)
      obtain ⟨v, hv⟩ := hv
      refine ⟨v, hv, ?_⟩
      rw [hl]
      refine eval_reads user base h ?_ _
      rcases hun with hun | hun <;> rw [hun] <;> exact hv

/-- In particular every parameter has a value, if the simulation does not stop at time zero. -/
theorem c127_total (user : Dict Str Str) (base : Dict Str Rat) (τ m : Rat)
    (hτ : base.get? c!"TAU" = some τ) (hm : base.get? c!"MAS_TIME_NORM" = some m) (hm0 : m ≠ 0)
    (hnames : ∀ n x, base.get? n = some x → ∀ c ∈ n, isWord c = true) (hu : Readable user)
    (hstop : ∀ start del, (rationalParams shippedReference user base).lookup 5 c!"simStartTime"
      = .ok (.num start) → (rationalParams shippedReference user base).lookup 5 c!"tDel"
      = .ok (.num del) → start + del ≠ 0) (n : Str) (hn : n ∈ shippedReference.keys) (f : Nat) :
    ∃ v, (rationalParams shippedReference user base).lookup (f + 5) n = .ok v := by
  obtain ⟨start, del, h1, h2, h⟩ := c127_defaults user base τ m hτ hm hm0 hnames hu
  have h0 := hstop start del (h1 0) (h2 0)
  rw [← Dict.get?_isSome_iff] at hn
  obtain ⟨⟨d, t⟩, hd⟩ := Option.isSome_iff_exists.1 hn
  obtain ⟨k1, k2⟩ := h n d t f hd
  have go : Unset user n →
      ∃ v, (rationalParams shippedReference user base).lookup (f + 5) n = .ok v := by
    intro hun
    obtain ⟨q1, q2, q3, q4, q5, q6⟩ := k2 hun
    by_cases hder : n ∈ derived
    · simp only [derived, List.mem_cons, List.not_mem_nil, or_false] at hder
      rcases hder with e | e | e | e | e | e
      · exact ⟨_, q1 (Or.inl e)⟩
      · exact ⟨_, q1 (Or.inr e)⟩
      · exact ⟨_, q2 e h0⟩
      · exact ⟨_, q3 e⟩
      · obtain ⟨x, _, hx⟩ := q4 e
        exact ⟨_, hx⟩
      · exact ⟨_, q5 e⟩
    · obtain ⟨v, _, hv⟩ := q6 hder
      exact ⟨v, hv⟩
  cases hg : user.get? n with
  | none => exact go (Or.inl hg)
  | some s =>
    cases s with
    | nil => exact go (Or.inr hg)
    | cons c s =>
      obtain ⟨v, hv⟩ := Option.isSome_iff_exists.1 (hu n _ d t hg (by simp) hd)
      exact ⟨v, k1 _ v hg (by simp) hv⟩

/-- Two constants. -/
def twoBases : Dict Str Rat := [(c!"TAU", 499), (c!"MAS_TIME_NORM", 1445)]

/-- A small configuration file. -/
def smallUser : Dict Str Str :=
  [(c!"simStartTime", c!"2.5"), (c!"numRowsPerFace", c!"3"), (c!"unknown", c!"x"), (c!"eMin", [])]

example : let P := rationalParams shippedReference smallUser twoBases
    P.lookup 5 c!"simStopTime" = .ok (.num (2.5 + 6004799503162583 / 576460752303423488))
    ∧ toFloat 0.01041666666667 = .ok (6004799503162583 / 576460752303423488)
    ∧ P.lookup 5 c!"epCalcStartTime" = .ok (.num 2.5) ∧ P.lookup 5 c!"numRowsPerFace" = .ok (.num 3)
    ∧ P.lookup 5 c!"mass" = .ok (.list [1]) := by decide +kernel

example : Readable smallUser
    ∧ ∀ n x, twoBases.get? n = some x → ∀ c ∈ n, isWord c = true := by
  constructor
  · intro n s d t hs h0 hr
    have hm := Dict.mem_of_get? hs
    simp only [smallUser, List.mem_cons, List.not_mem_nil, or_false, Prod.mk.injEq] at hm
    rcases hm with ⟨rfl, rfl⟩ | ⟨rfl, rfl⟩ | ⟨rfl, rfl⟩ | ⟨_, rfl⟩
    · have : shippedReference.get? c!"simStartTime" = some (c!"0.0", .float) := by decide +kernel
      rw [this] at hr
      simp only [Option.some.injEq, Prod.mk.injEq] at hr
      rw [← hr.2]; decide +kernel
    · have : shippedReference.get? c!"numRowsPerFace" = some (c!"2", .int) := by decide +kernel
      rw [this] at hr
      simp only [Option.some.injEq, Prod.mk.injEq] at hr
      rw [← hr.2]; decide +kernel
    · have : shippedReference.get? c!"unknown" = none := by decide +kernel
      rw [this] at hr; cases hr
    · exact absurd rfl h0
  · intro n x h
    have hm := Dict.mem_of_get? h
    simp only [twoBases, List.mem_cons, List.not_mem_nil, or_false, Prod.mk.injEq] at hm
    rcases hm with ⟨rfl, _⟩ | ⟨rfl, _⟩ <;> decide

end Verif.Defaults
