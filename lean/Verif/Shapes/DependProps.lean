import Verif.Shapes.Depend
import Verif.Eprem.Props
import Verif.Defaults.AliasProps

/-!
# Property C290: every listed quantity can be computed
-/

set_option linter.unusedSimpArgs false

namespace Verif.Shapes

open Verif.Py
open Verif.Metric (Str)

section
variable {A F : Type}

/-- How many functions deep a name is. -/
def levels : Dict Str Nat :=
  underAllNames ((registry.map (fun e => (e.1, 1))).map (fun e =>
    (e.1, if e.1 ∈ [c!"fluence", c!"integral_flux"] then 3
      else if e.1 ∈ [c!"acceleration_rate", c!"energy_density", c!"average_energy", c!"flux"] then 2 else 1)))

def level (k : Str) : Nat := (levels.get? k).getD 0

/-- The parameters of functions that are numbers. -/
def numberNames : List Str := [c!"mfp_radial_power", c!"rigidity_power", c!"lambda0", c!"kper_kpar", c!"minimum_energy"]

theorem level_parameters : ∀ e ∈ underAllNames registry, ∀ p ∈ e.2.parameters, level p < level e.1 ∧ level e.1 ≤ 3 := by
  decide +kernel

theorem numbers_last : ∀ e ∈ registry, e.2.parameters.Nodup ∧
    e.2.parameters = e.2.parameters.filter (· ∉ numberNames) ++ e.2.parameters.filter (· ∈ numberNames) := by
  decide +kernel

theorem underAllNames_mem {ν : Type} {d : Dict Str ν} {k : Str} {v : ν} (h : (k, v) ∈ underAllNames d) :
    ∃ n, (n, v) ∈ d ∧ k ∈ namesOf n := by
  unfold underAllNames at h
  simp only [List.mem_flatMap, List.mem_map, Prod.mk.injEq] at h
  obtain ⟨e, he, n, hn, rfl, rfl⟩ := h
  exact ⟨e.1, he, hn⟩

theorem underAllNames_keys {ν : Type} (d : Dict Str ν) : (underAllNames d).keys = d.keys.flatMap namesOf := by
  unfold underAllNames Dict.keys
  induction d with
  | nil => rfl
  | cons e d ih => simp [List.flatMap_cons, ih, Function.comp_def]

theorem shipped_get {f : Str → List (A ⊕ F) → Res A} {k : Str} {m : List Str × (List (A ⊕ F) → Res A)}
    (h : (shippedMethods f).get? k = some m) :
    ∃ e ∈ registry, k ∈ namesOf e.1 ∧ m = (e.2.parameters, f e.1) := by
  obtain ⟨n, hn, hk⟩ := underAllNames_mem (Dict.mem_of_get? h)
  obtain ⟨e, he, h2⟩ := List.mem_map.1 hn
  simp only [Prod.mk.injEq] at h2
  obtain ⟨rfl, rfl⟩ := h2
  exact ⟨e, he, hk, rfl⟩

theorem shipped_level {f : Str → List (A ⊕ F) → Res A} {k : Str} {m : List Str × (List (A ⊕ F) → Res A)}
    (h : (shippedMethods f).get? k = some m) : ∀ p ∈ m.1, level p < level k ∧ level k ≤ 3 := by
  obtain ⟨e, he, hk, rfl⟩ := shipped_get h
  exact level_parameters (k, e.2) (List.mem_flatMap.2 ⟨e, he, List.mem_map.2 ⟨k, hk, rfl⟩⟩)

theorem dependencies_congr {value : Str → Res (Option F)} {o o' : Str → Res (Option A)} : ∀ {ps : List Str}, (∀ p ∈ ps, o p = o' p) →
    dependencies value o ps = dependencies value o' ps
  | [], _ => rfl
  | p :: ps, h => by
    simp only [dependencies, dependency, h p List.mem_cons_self, dependencies_congr (fun q hq => h q (List.mem_cons_of_mem _ hq))]

theorem observable_stable (S : Session A F) (f : Str → List (A ⊕ F) → Res A) (hS : S.methods = shippedMethods f) :
    ∀ (n n' : Nat) (k : Str), level k < n → level k < n' → getObservable S n k = getObservable S n' k := by
  intro n
  induction n with
  | zero => intro n' k h; omega
  | succ n ih =>
    intro n' k h h'
    obtain ⟨n', rfl⟩ : ∃ j, n' = j + 1 := ⟨n' - 1, by omega⟩
    simp only [getObservable]
    cases S.vars.get? k with
    | some a => rfl
    | none =>
      cases hm : S.methods.get? k with
      | none => rfl
      | some m =>
        have hl := shipped_level (hS ▸ hm)
        simp only
        rw [dependencies_congr (fun p hp => ih n' p (by have := hl p hp; omega) (by have := hl p hp; omega))]

theorem level_le (k : Str) : level k ≤ 3 := by
  unfold level
  cases h : levels.get? k with
  | none => simp
  | some v =>
    have := (show ∀ e ∈ levels, e.2 ≤ 3 by decide +kernel) _ (Dict.mem_of_get? h)
    simpa using this

theorem parseLoop_error (deps : Dict Str (Eprem.Dep A F)) : ∀ (ps : List Str) (as : List A) (xs : List F) (e : Err),
    Eprem.parseLoop deps ps as xs = .error e → e = .keyError := by
  intro ps
  induction ps with
  | nil => intro as xs e h; simp [Eprem.parseLoop] at h
  | cons p ps ih =>
    intro as xs e h
    unfold Eprem.parseLoop at h
    split at h
    · cases h; rfl
    all_goals exact ih _ _ _ h

theorem dependencies_error {value : Str → Res (Option F)} {o : Str → Res (Option A)} {e : Err} : ∀ {ps : List Str},
    dependencies value o ps = .error e → ∃ p ∈ ps, o p = .error e ∨ value p = .error e
  | p :: ps, h => by
    unfold dependencies at h
    cases hd : dependency value o p with
    | error e' =>
      rw [hd] at h
      cases h
      refine ⟨p, List.mem_cons_self, ?_⟩
      unfold dependency at hd
      split at hd
      · next h2 => cases hd; exact .inl h2
      · cases hd
      · split at hd
        · next h2 => cases hd; exact .inr h2
        · cases hd
        · cases hd
    | ok d =>
      rw [hd] at h
      simp only at h
      cases hs : dependencies value o ps with
      | error e' =>
        rw [hs] at h
        cases h
        obtain ⟨q, hq, h⟩ := dependencies_error hs
        exact ⟨q, List.mem_cons_of_mem _ hq, h⟩
      | ok ds => rw [hs] at h; cases h

/-- **C290, part.** Whatever variables a dataset contains and whatever parameters are set: looking up a name ends after at most
four levels of functions, and further recursion would not change the outcome. -/
theorem c290_ends (S : Session A F) (f : Str → List (A ⊕ F) → Res A) (hS : S.methods = shippedMethods f) (key : Str) :
    (∀ n, getObservable S (n + 4) key = getObservable S 4 key) ∧
    ((∀ n args, f n args ≠ .error .recursionError) → (∀ p, S.value p ≠ .error .recursionError) →
      getObservable S 4 key ≠ .error .recursionError) := by
  refine ⟨fun n => observable_stable S f hS _ _ key (by have := level_le key; omega) (by have := level_le key; omega), ?_⟩
  intro hf hv
  have main : ∀ (n : Nat) (k : Str), level k < n → getObservable S n k ≠ .error .recursionError := by
    intro n
    induction n with
    | zero => intro k h; omega
    | succ n ih =>
      intro k h hr
      simp only [getObservable] at hr
      split at hr
      · cases hr
      · split at hr
        · cases hr
        · next m hm =>
          have hl := shipped_level (hS ▸ hm)
          obtain ⟨e, he, hk, rfl⟩ := shipped_get (hS ▸ hm)
          split at hr
          · next e' hd =>
            cases hr
            obtain ⟨p, hp, h1 | h1⟩ := dependencies_error hd
            · exact ih p (by have := hl p hp; omega) h1
            · exact hv p h1
          · split at hr
            · next e' hp =>
              cases hr
              unfold Eprem.parseArgs at hp
              cases h3 : Eprem.parseLoop _ e.2.parameters ([] : List A) ([] : List F) with
              | ok r => rw [h3] at hp; cases hp
              | error e4 =>
                rw [h3] at hp
                cases hp
                cases parseLoop_error _ _ _ _ _ h3
            · next args hp =>
              simp only at hr
              cases h3 : f e.1 args with
              | ok r => rw [h3] at hr; cases hr
              | error e4 =>
                rw [h3] at hr
                cases hr
                exact hf _ _ h3
  exact main 4 key (by have := level_le key; omega)

/-- What a function should receive for a parameter: the quantity of that name, otherwise the value of the parameter. -/
def argument (S : Session A F) (p : Str) : Res (A ⊕ F) :=
  match getObservable S 4 p with
  | .error e => .error e
  | .ok (some a) => .ok (.inl a)
  | .ok none =>
    match S.value p with
    | .error e => .error e
    | .ok (some x) => .ok (.inr x)
    | .ok none => .error .typeError

/-- Arguments for all parameters, in order. -/
def arguments (S : Session A F) : List Str → Res (List (A ⊕ F))
  | [] => .ok []
  | p :: ps =>
    match argument S p with
    | .error e => .error e
    | .ok a =>
      match arguments S ps with
      | .error e => .error e
      | .ok as => .ok (a :: as)

/-- What the context stores for an argument. -/
def asDep : A ⊕ F → Eprem.Dep A F
  | .inl a => .array a
  | .inr x => .scalar x

/-- A name is provided for: by the dataset, by a function, or as a parameter. -/
def Provided (S : Session A F) (p : Str) : Prop :=
  (∃ a, S.vars.get? p = some a) ∨ (∃ m, S.methods.get? p = some m) ∨ ∃ x, S.value p = .ok (some x)

theorem observable_some {S : Session A F} {n : Nat} {p : Str} (h : getObservable S (n + 1) p = .ok none) :
    S.vars.get? p = none ∧ S.methods.get? p = none := by
  simp only [getObservable] at h
  split at h
  · cases h
  · next hv =>
    split at h
    · next hm => exact ⟨hv, hm⟩
    · next m _ =>
      split at h
      · cases h
      · split at h
        · cases h
        · next args _ =>
          cases h3 : m.2 args with
          | ok r => rw [h3] at h; cases h
          | error e => rw [h3] at h; cases h

theorem dependency_eq (S : Session A F) (p : Str) (hp : Provided S p) :
    dependency S.value (getObservable S 4) p = (argument S p).map asDep := by
  unfold dependency argument
  cases ho : getObservable S 4 p with
  | error e => rfl
  | ok o =>
    cases o with
    | some a => rfl
    | none =>
      obtain ⟨hv, hm⟩ := observable_some ho
      rcases hp with ⟨a, ha⟩ | ⟨m, ha⟩ | ⟨x, hx⟩
      · rw [hv] at ha; cases ha
      · rw [hm] at ha; cases ha
      · rw [hx]; rfl

theorem dependencies_eq (S : Session A F) : ∀ (ps : List Str), (∀ p ∈ ps, Provided S p) →
    dependencies S.value (getObservable S 4) ps = (arguments S ps).map (fun as => ps.zip (as.map asDep))
  | [], _ => rfl
  | p :: ps, h => by
    unfold dependencies arguments
    rw [dependency_eq S p (h p List.mem_cons_self), dependencies_eq S ps (fun q hq => h q (List.mem_cons_of_mem _ hq))]
    cases argument S p with
    | error e => rfl
    | ok a =>
      cases arguments S ps with
      | error e => rfl
      | ok as => rfl

theorem arguments_length {S : Session A F} : ∀ {ps : List Str} {as : List (A ⊕ F)}, arguments S ps = .ok as → as.length = ps.length
  | [], as, h => by cases h; rfl
  | p :: ps, as, h => by
    unfold arguments at h
    split at h
    · cases h
    · split at h
      · cases h
      · next h2 => cases h; simp [arguments_length h2]

theorem arguments_append {S : Session A F} : ∀ {ps qs : List Str} {as : List (A ⊕ F)}, arguments S (ps ++ qs) = .ok as →
    ∃ bs cs, arguments S ps = .ok bs ∧ arguments S qs = .ok cs ∧ as = bs ++ cs
  | [], qs, as, h => ⟨[], as, rfl, h, rfl⟩
  | p :: ps, qs, as, h => by
    simp only [List.cons_append, arguments] at h
    split at h
    · cases h
    · next a ha =>
      split at h
      · cases h
      · next h2 =>
        cases h
        obtain ⟨bs, cs, h3, h4, rfl⟩ := arguments_append h2
        exact ⟨a :: bs, cs, by simp [arguments, ha, h3], h4, rfl⟩

theorem arguments_mem {S : Session A F} : ∀ {ps : List Str} {as : List (A ⊕ F)}, arguments S ps = .ok as → ∀ a ∈ as,
    ∃ p ∈ ps, argument S p = .ok a
  | [], as, h => by cases h; simp
  | p :: ps, as, h => by
    unfold arguments at h
    split at h
    · cases h
    · next b hb =>
      split at h
      · cases h
      · next h2 =>
        cases h
        intro a ha
        rcases List.mem_cons.1 ha with rfl | ha
        · exact ⟨p, List.mem_cons_self, hb⟩
        · obtain ⟨q, hq, h3⟩ := arguments_mem h2 a ha
          exact ⟨q, List.mem_cons_of_mem _ hq, h3⟩

theorem zip_get : ∀ (ps : List Str) (ds : List (Eprem.Dep A F)), ps.Nodup → ds.length = ps.length →
    ps.map (Dict.get? (ps.zip ds)) = ds.map some
  | [], [], _, _ => rfl
  | p :: ps, d :: ds, h, hl => by
    have ih := zip_get ps ds (List.nodup_cons.1 h).2 (by simpa using hl)
    simp only [List.zip_cons_cons, List.map_cons, Dict.get?_cons, if_true, List.cons.injEq, true_and]
    rw [← ih]
    refine List.map_congr_left (fun q hq => ?_)
    rw [Dict.get?_cons, if_neg]
    rintro rfl
    exact (List.nodup_cons.1 h).1 hq
  | [], _ :: _, _, hl => by simp at hl
  | _ :: _, [], _, hl => by simp at hl

theorem lefts (as : List (A ⊕ F)) (h : ∀ a ∈ as, ∃ x, a = .inl x) : ∃ bs : List A, as = bs.map .inl := by
  induction as with
  | nil => exact ⟨[], rfl⟩
  | cons a as ih =>
    obtain ⟨x, rfl⟩ := h a List.mem_cons_self
    obtain ⟨bs, rfl⟩ := ih (fun a ha => h a (List.mem_cons_of_mem _ ha))
    exact ⟨x :: bs, rfl⟩

theorem rights (as : List (A ⊕ F)) (h : ∀ a ∈ as, ∃ x, a = .inr x) : ∃ bs : List F, as = bs.map .inr := by
  induction as with
  | nil => exact ⟨[], rfl⟩
  | cons a as ih =>
    obtain ⟨x, rfl⟩ := h a List.mem_cons_self
    obtain ⟨bs, rfl⟩ := ih (fun a ha => h a (List.mem_cons_of_mem _ ha))
    exact ⟨x :: bs, rfl⟩

theorem parse_zip (an sn : List Str) (as : List A) (xs : List F) (hn : (an ++ sn).Nodup) (ha : as.length = an.length)
    (hx : xs.length = sn.length) :
    Eprem.parseArgs ((an ++ sn).zip ((as.map Sum.inl ++ xs.map Sum.inr : List (A ⊕ F)).map asDep)) (an ++ sn) =
      .ok (as.map .inl ++ xs.map .inr) := by
  have hz := zip_get (an ++ sn) ((as.map Sum.inl ++ xs.map Sum.inr : List (A ⊕ F)).map asDep) hn (by simp [ha, hx])
  simp only [List.map_append, List.map_map] at hz
  obtain ⟨h1, h2⟩ := List.append_inj hz (by simp [ha])
  unfold Eprem.parseArgs
  have e1 := Eprem.parseLoop_arrays ((an ++ sn).zip ((as.map Sum.inl ++ xs.map Sum.inr : List (A ⊕ F)).map asDep)) an as sn [] []
    (by simpa [Function.comp_def, asDep] using h1)
  have e2 := Eprem.parseLoop_scalars ((an ++ sn).zip ((as.map Sum.inl ++ xs.map Sum.inr : List (A ⊕ F)).map asDep)) sn xs [] as []
    (by simpa [Function.comp_def, asDep] using h2)
  rw [List.append_nil] at e2
  simp only [List.nil_append] at e1 e2
  rw [e1, e2]
  rfl

/-- The kinds of dataset that have all variables: with the particle distribution, with or without flux. -/
def completeFiles : List (Dict Str (List Str)) := [[distribution], [distribution, fluxVariable]]

theorem names_provided : ∀ more ∈ completeFiles, ∀ e ∈ registry, ∀ p ∈ e.2.parameters, p ∉ numberNames →
    p ∈ (baseVariables ++ more).keys.flatMap namesOf ∨ p ∈ registry.keys.flatMap namesOf := by
  decide +kernel

theorem numbers_apart : ∀ more ∈ completeFiles, ∀ p ∈ numberNames,
    p ∉ (baseVariables ++ more).keys.flatMap namesOf ∧ p ∉ registry.keys.flatMap namesOf := by
  decide +kernel

theorem datasetVars_keys (more : Dict Str (List Str)) (data : Str → A) :
    (datasetVars more data).keys = (baseVariables ++ more).keys.flatMap namesOf := by
  rw [datasetVars, underAllNames_keys]
  congr 1
  simp [Dict.keys, Function.comp_def]

theorem shippedMethods_keys (f : Str → List (A ⊕ F) → Res A) : (shippedMethods f).keys = registry.keys.flatMap namesOf := by
  rw [shippedMethods, underAllNames_keys]
  congr 1

/-- A session with a complete dataset, in which the numbers that functions need are set. -/
structure Complete (S : Session A F) (f : Str → List (A ⊕ F) → Res A) : Prop where
  vars : ∃ more ∈ completeFiles, ∃ data, S.vars = datasetVars more data
  methods : S.methods = shippedMethods f
  numbers : ∀ p ∈ numberNames, ∃ x, S.value p = .ok (some x)

theorem Complete.kind {S : Session A F} {f : Str → List (A ⊕ F) → Res A} (h : Complete S f) {e : Str × Eprem.Method}
    (he : e ∈ registry) {p : Str} (hp : p ∈ e.2.parameters) :
    if p ∈ numberNames then S.vars.get? p = none ∧ S.methods.get? p = none ∧ ∃ x, S.value p = .ok (some x)
    else (∃ a, S.vars.get? p = some a) ∨ ∃ m, S.methods.get? p = some m := by
  obtain ⟨more, hmore, data, hvars⟩ := h.vars
  split
  · next hn =>
    obtain ⟨h1, h2⟩ := numbers_apart more hmore p hn
    refine ⟨?_, ?_, h.numbers p hn⟩
    · rw [Dict.get?_eq_none_iff, hvars, datasetVars_keys]; exact h1
    · rw [Dict.get?_eq_none_iff, h.methods, shippedMethods_keys]; exact h2
  · next hn =>
    rcases names_provided more hmore e he p hp hn with h1 | h1
    · left
      rw [← Option.isSome_iff_exists, Dict.get?_isSome_iff, hvars, datasetVars_keys]; exact h1
    · right
      rw [← Option.isSome_iff_exists, Dict.get?_isSome_iff, h.methods, shippedMethods_keys]; exact h1

theorem Complete.provided {S : Session A F} {f : Str → List (A ⊕ F) → Res A} (h : Complete S f) {e : Str × Eprem.Method}
    (he : e ∈ registry) {p : Str} (hp : p ∈ e.2.parameters) : Provided S p := by
  have := h.kind he hp
  split at this
  · exact .inr (.inr this.2.2)
  · exact this.elim .inl (fun h => .inr (.inl h))

theorem observable_number {S : Session A F} {p : Str} {n : Nat} (h1 : S.vars.get? p = none) (h2 : S.methods.get? p = none) :
    getObservable S (n + 1) p = .ok none := by
  simp [getObservable, h1, h2]

theorem Complete.isLeft {S : Session A F} {f : Str → List (A ⊕ F) → Res A} (h : Complete S f) {e : Str × Eprem.Method}
    (he : e ∈ registry) {p : Str} (hp : p ∈ e.2.parameters) {a : A ⊕ F} (ha : argument S p = .ok a) :
    if p ∈ numberNames then ∃ x, a = .inr x else ∃ x, a = .inl x := by
  have hk := h.kind he hp
  split
  · next hn =>
    rw [if_pos hn] at hk
    obtain ⟨h1, h2, x, hx⟩ := hk
    unfold argument at ha
    rw [observable_number h1 h2, hx] at ha
    cases ha
    exact ⟨x, rfl⟩
  · next hn =>
    rw [if_neg hn] at hk
    unfold argument at ha
    cases ho : getObservable S 4 p with
    | error e => rw [ho] at ha; cases ha
    | ok o =>
      rw [ho] at ha
      cases o with
      | some x => cases ha; exact ⟨x, rfl⟩
      | none =>
        obtain ⟨h1, h2⟩ := observable_some ho
        rcases hk with ⟨a, hk⟩ | ⟨m, hk⟩
        · rw [h1] at hk; cases hk
        · rw [h2] at hk; cases hk

/-- **C290 (part).** For every complete dataset, all values of its variables and parameters, and all functions: under each of its
names, a quantity of the dataset is itself; and a computed quantity is the result of its function for one argument per
parameter, in the order of the signature, each of them the quantity or else the parameter of that name. Every parameter of every
function is provided for. Missing: datasets without all variables. -/
theorem c290_partial (S : Session A F) (f : Str → List (A ⊕ F) → Res A) (h : Complete S f) (key : Str) :
    (∀ a, S.vars.get? key = some a → getObservable S 4 key = .ok (some a)) ∧
    (S.vars.get? key = none → ∀ e ∈ registry, S.methods.get? key = some (e.2.parameters, f e.1) →
      getObservable S 4 key = (match arguments S e.2.parameters with
        | .error x => .error x
        | .ok args => (f e.1 args).map some)) ∧
    (∀ e ∈ registry, ∀ p ∈ e.2.parameters, Provided S p) := by
  refine ⟨fun a ha => by simp [getObservable, ha], ?_, fun e he p hp => h.provided he hp⟩
  intro hv e he hm
  obtain ⟨hnd, hsplit⟩ := numbers_last e he
  have hdeps : dependencies S.value (getObservable S 3) e.2.parameters =
      (arguments S e.2.parameters).map (fun as => e.2.parameters.zip (as.map asDep)) := by
    rw [← dependencies_eq S _ (fun p hp => h.provided he hp)]
    refine dependencies_congr (fun p hp => ?_)
    have := shipped_level (h.methods ▸ hm) p hp
    exact observable_stable S f h.methods _ _ p (by omega) (by omega)
  rw [getObservable]
  simp only [hv, hm, hdeps]
  cases ha : arguments S e.2.parameters with
  | error x => rfl
  | ok args =>
    simp only [Except.map]
    have hparse : Eprem.parseArgs (e.2.parameters.zip (args.map asDep)) e.2.parameters = .ok args := by
      rw [hsplit] at ha
      obtain ⟨bs, cs, h1, h2, rfl⟩ := arguments_append ha
      obtain ⟨as, rfl⟩ := lefts bs (fun b hb => by
        obtain ⟨p, hp, hpb⟩ := arguments_mem h1 b hb
        obtain ⟨hp1, hp2⟩ := List.mem_filter.1 hp
        have := h.isLeft he hp1 hpb
        rwa [if_neg (by simpa using hp2)] at this)
      obtain ⟨xs, rfl⟩ := rights cs (fun b hb => by
        obtain ⟨p, hp, hpb⟩ := arguments_mem h2 b hb
        obtain ⟨hp1, hp2⟩ := List.mem_filter.1 hp
        have := h.isLeft he hp1 hpb
        rwa [if_pos (by simpa using hp2)] at this)
      have := parse_zip (e.2.parameters.filter (· ∉ numberNames)) (e.2.parameters.filter (· ∈ numberNames)) as xs
        (hsplit ▸ hnd) (by simpa using arguments_length h1) (by simpa using arguments_length h2)
      rw [← hsplit] at this
      exact this
    rw [hparse]

/-- **C290 (part).** If moreover each function succeeds for one argument per parameter (numbers for the parameters of the
configuration, arrays for the others), then every name of every registered function can be observed. -/
theorem c290_partial_all (S : Session A F) (f : Str → List (A ⊕ F) → Res A) (h : Complete S f)
    (hf : ∀ e ∈ registry, ∀ args : List (A ⊕ F), args.map Sum.isRight = e.2.parameters.map (fun p => decide (p ∈ numberNames)) →
      ∃ a, f e.1 args = .ok a) (key : Str) (hkey : key ∈ registry.keys.flatMap namesOf) :
    ∃ a, getObservable S 4 key = .ok (some a) := by
  have main : ∀ (n : Nat) (k : Str), level k < n → k ∈ registry.keys.flatMap namesOf ∨ (∃ a, S.vars.get? k = some a) →
      ∃ a, getObservable S 4 k = .ok (some a) := by
    intro n
    induction n with
    | zero => intro k h; omega
    | succ n ih =>
      intro k hl hk
      cases hv : S.vars.get? k with
      | some a => exact ⟨a, (c290_partial S f h k).1 a hv⟩
      | none =>
        have hk : k ∈ registry.keys.flatMap namesOf := hk.resolve_right (by rw [hv]; simp)
        obtain ⟨m, hm⟩ : ∃ m, S.methods.get? k = some m := by
          rw [← Option.isSome_iff_exists, Dict.get?_isSome_iff, h.methods, shippedMethods_keys]; exact hk
        obtain ⟨e, he, -, rfl⟩ := shipped_get (h.methods ▸ hm)
        rw [(c290_partial S f h k).2.1 hv e he hm]
        have hlv := shipped_level (h.methods ▸ hm)
        have hargs : ∀ ps : List Str, (∀ p ∈ ps, p ∈ e.2.parameters) →
            ∃ args, arguments S ps = .ok args ∧ args.map Sum.isRight = ps.map (fun p => decide (p ∈ numberNames)) := by
          intro ps
          induction ps with
          | nil => exact fun _ => ⟨[], rfl, rfl⟩
          | cons p ps ihp =>
            intro hps
            obtain ⟨args, h1, h2⟩ := ihp (fun q hq => hps q (List.mem_cons_of_mem _ hq))
            have hp := hps p List.mem_cons_self
            have hkind := h.kind he hp
            by_cases hn : p ∈ numberNames
            · rw [if_pos hn] at hkind
              obtain ⟨hv, hm, x, hx⟩ := hkind
              refine ⟨.inr x :: args, ?_, by simp [h2, hn]⟩
              simp [arguments, argument, observable_number hv hm, hx, h1]
            · rw [if_neg hn] at hkind
              obtain ⟨a, ha⟩ := ih p (by have := hlv p hp; omega) (by
                rcases hkind with hk | ⟨m, hk⟩
                · exact .inr hk
                · refine .inl ?_
                  rw [← shippedMethods_keys f, ← h.methods, ← Dict.get?_isSome_iff, hk]; rfl)
              refine ⟨.inl a :: args, ?_, by simp [h2, hn]⟩
              simp [arguments, argument, ha, h1]
        obtain ⟨args, h1, h2⟩ := hargs _ (fun _ hp => hp)
        obtain ⟨a, ha⟩ := hf e he args h2
        exact ⟨a, by rw [h1]; simp [ha, Except.map]⟩
  exact main (level key + 1) key (Nat.lt_succ_self _) (.inl hkey)

/-- The numbers that functions need are parameters of the packaged configuration, under those names. -/
theorem c290_numbers : ∀ p ∈ numberNames, ∃ g ∈ Defaults.allNames, p ∈ g := by decide +kernel

/-- **C290 fails in the code.** An observer lists all registered functions for every dataset. For a dataset without the particle
distribution (whether or not it has the flux), the isotropic distribution is listed, but its function is called without any
argument. -/
theorem c290_counterexample (S : Session A F) (f : Str → List (A ⊕ F) → Res A) (more : Dict Str (List Str))
    (hmore : more ∈ [[], [fluxVariable]]) (data : Str → A) (hv : S.vars = datasetVars more data) (hm : S.methods = shippedMethods f)
    (hd : S.value c!"dist" = .ok none) :
    c!"isodist" ∈ registry.keys.flatMap namesOf ∧ getObservable S 4 c!"isodist" = (f c!"isotropic_distribution" []).map some := by
  refine ⟨by decide +kernel, ?_⟩
  have v1 : S.vars.get? c!"isodist" = none := by
    rw [Dict.get?_eq_none_iff, hv, datasetVars_keys]
    exact (show ∀ more ∈ [[], [fluxVariable]], c!"isodist" ∉ (baseVariables ++ more).keys.flatMap namesOf by decide +kernel) more hmore
  have v2 : S.vars.get? c!"dist" = none := by
    rw [Dict.get?_eq_none_iff, hv, datasetVars_keys]
    exact (show ∀ more ∈ [[], [fluxVariable]], c!"dist" ∉ (baseVariables ++ more).keys.flatMap namesOf by decide +kernel) more hmore
  have m2 : S.methods.get? c!"dist" = none := by
    rw [Dict.get?_eq_none_iff, hm, shippedMethods_keys]
    decide +kernel
  obtain ⟨m, m1⟩ : ∃ m, S.methods.get? c!"isodist" = some m := by
    rw [← Option.isSome_iff_exists, Dict.get?_isSome_iff, hm, shippedMethods_keys]
    decide +kernel
  obtain ⟨e, he, hk, rfl⟩ := shipped_get (hm ▸ m1)
  have he : e = (c!"isotropic_distribution", ⟨[c!"dist"], [c!"mu"], []⟩) :=
    (show ∀ e ∈ registry, c!"isodist" ∈ namesOf e.1 → e = (c!"isotropic_distribution", ⟨[c!"dist"], [c!"mu"], []⟩) by
      decide +kernel) e he hk
  subst he
  rw [getObservable]
  simp only [v1, m1, dependencies, dependency, observable_number v2 m2, hd]
  simp [Eprem.parseArgs, Eprem.parseLoop, Dict.get?_cons, Except.map]

end

/-- Functions that show what they are called with. -/
def shows (n : Str) (args : List (Str ⊕ Nat)) : Res Str :=
  .ok (n ++ ['('] ++ (args.map (fun a => match a with | .inl s => s ++ [','] | .inr _ => c!"#,")).flatten ++ [')'])

/-- A session in which each variable is shown by its name, and each parameter is set. -/
def demoSession (more : Dict Str (List Str)) (known : Bool) : Session Str Nat :=
  ⟨datasetVars more id, shippedMethods shows, fun p => .ok (if known && p ∈ numberNames then some 1 else none)⟩

theorem demo_complete : Complete (demoSession [distribution] true) shows :=
  ⟨⟨[distribution], by decide +kernel, id, rfl⟩, rfl, fun p hp => ⟨1, by simp [demoSession, hp]⟩⟩

example : getObservable (demoSession [distribution] true) 4 c!"integral flux" =
      .ok (some c!"integral_flux(energy,flux(energy,isotropic_distribution(dist,),),#,)") ∧
    getObservable (demoSession [distribution, fluxVariable] true) 4 c!"fluence" = .ok (some c!"fluence(flux,time,)") ∧
    getObservable (demoSession [distribution] true) 4 c!"acceleration rate" =
      .ok (some (c!"acceleration_rate(Vr,Vt,Vp,speed,flow_angle(Br,Bt,Bp,Vr,Vt,Vp,)," ++
        c!"mean_free_path(radius,energy,mass,charge,#,#,#,),#,)")) := by decide +kernel

example : getObservable (demoSession [distribution] true) (7 + 4) c!"mfp" = getObservable (demoSession [distribution] true) 4 c!"mfp" :=
  (c290_ends _ shows rfl _).1 7

example : ∃ a, getObservable (demoSession [distribution] true) 4 c!"average energy" = .ok (some a) :=
  c290_partial_all _ shows demo_complete (fun _ _ _ _ => ⟨_, rfl⟩) _ (by decide +kernel)

example : getObservable (demoSession [] true) 4 c!"isodist" = .ok (some c!"isotropic_distribution()") ∧
    getObservable (demoSession [] true) 4 c!"flux" = .ok (some c!"flux(energy,isotropic_distribution(),)") := by decide +kernel

end Verif.Shapes
