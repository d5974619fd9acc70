import Mathlib.Data.List.Induction
import Mathlib.Tactic.Tauto
import Verif.Eprem.Observer

/-!
# Updating an observer (C102, C103)
-/

set_option linter.unusedSimpArgs false
set_option linter.unusedSectionVars false

namespace Verif.Eprem

open Verif.Py Verif.Files

/-! ## Specification -/

section
variable {ι : Type}

/-- What a new observer would show, given where its data and configuration are. -/
def contentOf (S : Site ι) (source : Path) (config : Option ConfArg) (system : Str) :
    Res (Option Content) := do
  match ← buildDatapath S source with
  | none => pure none
  | some d =>
    match ← buildConfpath S config d with
    | none => pure none
    | some c => pure (some ⟨d, c, system⟩)

/-- The updates that do not depend on where the previous data were: a new source comes with a new
configuration file, or the configuration file in force is given by a path. -/
def Harmless (o : Observer) (u : Option Path × Option ConfArg) : Prop :=
  u.1 = none ∨ u.2 ≠ none ∨ (∃ p, o.config = some (.path p)) ∨ o.config = none

/-- Every update of a history is harmless when it is made. -/
def AllHarmless (S : Site ι) : Observer → List (Option Path × Option ConfArg) → Prop
  | _, [] => True
  | o, u :: us => Harmless o u ∧ AllHarmless S (o.update S u.1 u.2).2 us

/-! ## The invariant -/

/-- The stored paths are those that would be found. -/
structure Observer.Inv (S : Site ι) (o : Observer) : Prop where
  data : ∀ p, o.datapath = some p → buildDatapath S o.source = .ok (some p)
  conf : ∀ c, o.confpath = some c → ∀ d, buildDatapath S o.source = .ok (some d) →
    buildConfpath S o.config d = .ok (some c)
  confn : o.config = none → o.confpath = none
  confp : ∀ p c, o.config = some (.path p) → o.confpath = some c → readOnly S.fs p = .ok c

theorem Observer.getDatapath_spec {S : Site ι} {o : Observer} (h : o.Inv S) :
    (o.getDatapath S).1 = buildDatapath S o.source
    ∧ ((o.getDatapath S).2).Inv S
    ∧ ((o.getDatapath S).2).source = o.source ∧ ((o.getDatapath S).2).config = o.config
    ∧ ((o.getDatapath S).2).context = o.context ∧ ((o.getDatapath S).2).confpath = o.confpath
    ∧ ((o.getDatapath S).2).system = o.system := by
  unfold Observer.getDatapath
  cases hd : o.datapath with
  | some p => exact ⟨(h.data p hd).symm, h, rfl, rfl, rfl, rfl, rfl⟩
  | none =>
    cases hb : buildDatapath S o.source with
    | error e => exact ⟨rfl, h, rfl, rfl, rfl, rfl, rfl⟩
    | ok r =>
      refine ⟨rfl, ⟨?_, h.conf, h.confn, h.confp⟩, rfl, rfl, rfl, rfl, rfl⟩
      intro p hp
      simp only at hp
      rw [hb, hp]

theorem Observer.getConfpath_spec {S : Site ι} {o : Observer} (h : o.Inv S) {d : Path}
    (hd : buildDatapath S o.source = .ok (some d)) :
    (o.getConfpath S d).1 = buildConfpath S o.config d
    ∧ ((o.getConfpath S d).2).Inv S
    ∧ ((o.getConfpath S d).2).source = o.source ∧ ((o.getConfpath S d).2).config = o.config
    ∧ ((o.getConfpath S d).2).context = o.context ∧ ((o.getConfpath S d).2).system = o.system := by
  unfold Observer.getConfpath
  cases hc : o.confpath with
  | some p => exact ⟨(h.conf p hc d hd).symm, h, rfl, rfl, rfl, rfl⟩
  | none =>
    cases hb : buildConfpath S o.config d with
    | error e => exact ⟨rfl, h, rfl, rfl, rfl, rfl⟩
    | ok r =>
      refine ⟨rfl, ⟨h.data, ?_, ?_, ?_⟩, rfl, rfl, rfl, rfl⟩
      · intro c hc' d' hd'
        simp only at hc' hd'
        rw [hd] at hd'
        injection hd' with hd'
        injection hd' with hd'
        subst hd'
        rw [hb, hc']
      · intro hn
        simp only at hn ⊢
        rw [hn] at hb
        simp [buildConfpath] at hb
        exact hb.symm
      · intro p c hp hc'
        simp only at hp hc'
        rw [hp] at hb
        simp only [buildConfpath] at hb
        cases hr : readOnly S.fs p with
        | error e => rw [hr] at hb; simp at hb
        | ok q =>
          rw [hr] at hb
          simp only at hb
          injection hb with hb
          rw [hc'] at hb
          injection hb with hb
          rw [hb]

theorem Observer.assign_fields (o : Observer) (source : Option Path) (config : Option ConfArg) :
    (o.assign source config).source = source.getD o.source
    ∧ (o.assign source config).config = config.or o.config
    ∧ (o.assign source config).context = o.context
    ∧ (o.assign source config).system = o.system := by
  unfold Observer.assign
  cases source <;> cases config <;> simp

theorem Observer.assign_inv {S : Site ι} {o : Observer} (h : o.Inv S) (source : Option Path)
    (config : Option ConfArg) (hh : Harmless o (source, config)) :
    (o.assign source config).Inv S := by
  unfold Observer.assign
  cases config with
  | some c =>
    cases source with
    | none => exact ⟨h.data, by simp, by simp, by simp⟩
    | some s => exact ⟨by simp, by simp, by simp, by simp⟩
  | none =>
    cases source with
    | none => exact h
    | some s =>
      rcases hh with hh | hh | ⟨p, hp⟩ | hn
      · simp at hh
      · simp at hh
      · refine ⟨by simp, ?_, fun hc => h.confn hc, h.confp⟩
        intro c hc d hd
        simp only at hp hc hd ⊢
        rw [hp]
        simp only [buildConfpath, h.confp p c hp hc]
      · refine ⟨by simp, ?_, fun hc => h.confn hc, h.confp⟩
        intro c hc
        simp only at hc
        rw [h.confn hn] at hc
        simp at hc

theorem Observer.buildContext_spec {S : Site ι} {o : Observer} (h : o.Inv S) (source : Option Path)
    (config : Option ConfArg) (system : Option Str) (hh : Harmless o (source, config)) :
    (o.buildContext S source config system).1
        = contentOf S (source.getD o.source) (config.or o.config) (system.getD c!"mks")
    ∧ ((o.buildContext S source config system).2).Inv S
    ∧ ((o.buildContext S source config system).2).source = source.getD o.source
    ∧ ((o.buildContext S source config system).2).config = config.or o.config
    ∧ ((o.buildContext S source config system).2).context = o.context
    ∧ ((o.buildContext S source config system).2).system = o.system := by
  obtain ⟨a1, a2, a3, a4⟩ := o.assign_fields source config
  have hi := Observer.assign_inv h source config hh
  obtain ⟨b1, b2, b3, b4, b5, b6, b7⟩ := Observer.getDatapath_spec hi
  rw [a1] at b1
  unfold Observer.buildContext contentOf
  rw [show (o.assign source config).getDatapath S
    = (((o.assign source config).getDatapath S).1, ((o.assign source config).getDatapath S).2) from rfl,
    b1]
  cases hd : buildDatapath S (source.getD o.source) with
  | error e => exact ⟨rfl, b2, b3.trans a1, b4.trans a2, b5.trans a3, b7.trans a4⟩
  | ok r =>
    cases r with
    | none => exact ⟨rfl, b2, b3.trans a1, b4.trans a2, b5.trans a3, b7.trans a4⟩
    | some d =>
      have hd' : buildDatapath S ((o.assign source config).getDatapath S).2.source = .ok (some d) := by
        rw [b3, a1]; exact hd
      obtain ⟨c1, c2, c3, c4, c5, c6⟩ := Observer.getConfpath_spec b2 hd'
      rw [b4, a2] at c1
      simp only
      rw [show (((o.assign source config).getDatapath S).2).getConfpath S d
        = (((((o.assign source config).getDatapath S).2).getConfpath S d).1,
          ((((o.assign source config).getDatapath S).2).getConfpath S d).2) from rfl, c1]
      have rest := (⟨c2, c3.trans (b3.trans a1), c4.trans (b4.trans a2), c5.trans (b5.trans a3),
        c6.trans (b7.trans a4)⟩ : _ ∧ _ ∧ _ ∧ _ ∧ _)
      cases hcf : buildConfpath S (config.or o.config) d with
      | error e => exact ⟨by simp [bind, Except.bind, hcf], rest⟩
      | ok r =>
        cases r with
        | none => exact ⟨by simp [bind, Except.bind, hcf, pure, Except.pure], rest⟩
        | some c => exact ⟨by simp [bind, Except.bind, hcf, pure, Except.pure], rest⟩

theorem Observer.create_inv {S : Site ι} {config source system} {o : Observer}
    (h : Observer.create S config source system = .ok o) :
    o.Inv S ∧ o.source = source.getD S.cwd ∧ o.config = config ∧ o.system = system.getD c!"mks"
    ∧ contentOf S o.source o.config o.system = .ok o.context := by
  unfold Observer.create at h
  have hi : (⟨source.getD S.cwd, config, system.getD c!"mks", none, none, none⟩ : Observer).Inv S :=
    ⟨by simp, by simp, by simp, by simp⟩
  obtain ⟨a1, a2, a3, a4, a5, a6⟩ := Observer.buildContext_spec hi none none system (Or.inl rfl)
  simp only at h
  revert h a1 a2 a3 a4 a5 a6
  generalize Observer.buildContext S
    ⟨source.getD S.cwd, config, system.getD c!"mks", none, none, none⟩ none none system = r
  obtain ⟨r1, r2⟩ := r
  intro h a1 a2 a3 a4 a5 a6
  cases r1 with
  | error e => simp at h
  | ok c =>
    simp only at h
    injection h with h
    subst h
    refine ⟨⟨a2.data, a2.conf, a2.confn, a2.confp⟩, a3, a4, a6, ?_⟩
    simp only at a1 a3 a4 a6 ⊢
    rw [a3, a4, a6]
    exact a1.symm

theorem Observer.update_spec {S : Site ι} {o : Observer} (h : o.Inv S)
    (source : Option Path) (config : Option ConfArg) (hh : Harmless o (source, config)) :
    ((o.update S source config).2).Inv S
    ∧ ((o.update S source config).2).source = source.getD o.source
    ∧ ((o.update S source config).2).config = config.or o.config
    ∧ ((o.update S source config).2).system = o.system
    ∧ (∀ e, contentOf S (source.getD o.source) (config.or o.config) c!"mks" = .error e →
        (o.update S source config).1 = .error e
        ∧ ((o.update S source config).2).context = o.context)
    ∧ (contentOf S (source.getD o.source) (config.or o.config) c!"mks" = .ok none →
        (o.update S source config).1 = .ok ()
        ∧ ((o.update S source config).2).context = o.context)
    ∧ (∀ c, contentOf S (source.getD o.source) (config.or o.config) c!"mks" = .ok (some c) →
        (o.update S source config).1 = .ok ()
        ∧ ((o.update S source config).2).context = some c) := by
  obtain ⟨a1, a2, a3, a4, a5, a6⟩ := Observer.buildContext_spec h source config none hh
  unfold Observer.update
  revert a1 a2 a3 a4 a5 a6
  generalize o.buildContext S source config none = r
  obtain ⟨r1, r2⟩ := r
  intro a1 a2 a3 a4 a5 a6
  simp only [Option.getD_none] at a1
  rw [← a1]
  cases r1 with
  | error e =>
    refine ⟨a2, a3, a4, a6, ?_, by simp, by simp⟩
    intro e' he; injection he with he; subst he; exact ⟨rfl, a5⟩
  | ok r =>
    cases r with
    | none => exact ⟨a2, a3, a4, a6, by simp, fun _ => ⟨rfl, a5⟩, by simp⟩
    | some c =>
      refine ⟨⟨a2.data, a2.conf, a2.confn, a2.confp⟩, a3, a4, a6, by simp, by simp, ?_⟩
      intro c' hc; injection hc with hc; injection hc with hc; subst hc; exact ⟨rfl, rfl⟩

theorem Observer.updates_inv {S : Site ι} : ∀ (us : List (Option Path × Option ConfArg)) (o : Observer),
    o.Inv S → AllHarmless S o us → (o.updates S us).Inv S
      ∧ (o.updates S us).system = o.system := by
  intro us
  induction us with
  | nil => intro o h _; exact ⟨h, rfl⟩
  | cons u us ih =>
    intro o h ha
    have hu := Observer.update_spec h u.1 u.2 ha.1
    obtain ⟨i1, i2⟩ := ih _ hu.1 ha.2
    exact ⟨i1, i2.trans hu.2.2.2.1⟩

/-- C103, partial. After creating an observer and any updates (also failing ones) that do not change
the source alone while the configuration is given by its bare file name, one more such update makes
the observer show exactly what a new MKS observer with the same source and configuration would show,
if that shows anything; if it would raise an exception, then the update raises it and the observer
is as before.

Missing: updates that change only the source while the configuration is a bare file name; and an
update to a source without data is silently ignored (`c103_counterexample`). -/
theorem c103_partial (S : Site ι) (config : Option ConfArg) (source : Option Path)
    (system : Option Str) (o : Observer) (ho : Observer.create S config source system = .ok o)
    (us : List (Option Path × Option ConfArg)) (hus : AllHarmless S o us)
    (u : Option Path × Option ConfArg) (hu : Harmless (o.updates S us) u) :
    (∀ new, Observer.create S (u.2.or (o.updates S us).config)
          (some (u.1.getD (o.updates S us).source)) (some c!"mks") = .ok new →
        new.context.isSome →
      ((o.updates S us).update S u.1 u.2).1 = .ok ()
      ∧ ((o.updates S us).update S u.1 u.2).2.context = new.context)
    ∧ ∀ e, Observer.create S (u.2.or (o.updates S us).config)
          (some (u.1.getD (o.updates S us).source)) (some c!"mks") = .error e →
      ((o.updates S us).update S u.1 u.2).1 = .error e
      ∧ ((o.updates S us).update S u.1 u.2).2.context = (o.updates S us).context := by
  have h0 := Observer.updates_inv us o (Observer.create_inv ho).1 hus
  obtain ⟨-, -, -, -, k1, k2, k3⟩ := Observer.update_spec h0.1 u.1 u.2 hu
  constructor
  · intro new hnew hs
    obtain ⟨-, n1, n2, n3, n4⟩ := Observer.create_inv hnew
    obtain ⟨c, hc⟩ := Option.isSome_iff_exists.1 hs
    rw [n1, n2, n3, hc] at n4
    rw [hc]
    exact k3 c n4
  · intro e he
    refine k1 e ?_
    unfold Observer.create at he
    have hi : (⟨(some (u.1.getD (o.updates S us).source)).getD S.cwd, u.2.or (o.updates S us).config,
        (some c!"mks").getD c!"mks", none, none, none⟩ : Observer).Inv S :=
      ⟨by simp, by simp, by simp, by simp⟩
    obtain ⟨a1, -⟩ := Observer.buildContext_spec hi none none (some c!"mks") (Or.inl rfl)
    simp only at he
    revert a1 he
    generalize Observer.buildContext S _ none none (some c!"mks") = r
    obtain ⟨r1, r2⟩ := r
    intro he a1
    cases r1 with
    | error e' =>
      simp only at he
      injection he with he
      subst he
      exact a1.symm
    | ok c => simp at he

theorem Observer.buildContext_keeps (S : Site ι) (o : Observer) (source : Option Path)
    (config : Option ConfArg) (system : Option Str) :
    ((o.buildContext S source config system).2).system = o.system
    ∧ ((o.buildContext S source config system).2).context = o.context
    ∧ ∀ c, (o.buildContext S source config system).1 = .ok (some c) →
        c.system = system.getD c!"mks" := by
  obtain ⟨-, -, a3, a4⟩ := o.assign_fields source config
  have hd : ∀ o' : Observer, (o'.getDatapath S).2.system = o'.system
      ∧ (o'.getDatapath S).2.context = o'.context := by
    intro o'
    unfold Observer.getDatapath
    cases o'.datapath with
    | some p => exact ⟨rfl, rfl⟩
    | none => cases buildDatapath S o'.source <;> exact ⟨rfl, rfl⟩
  have hc : ∀ (o' : Observer) d, (o'.getConfpath S d).2.system = o'.system
      ∧ (o'.getConfpath S d).2.context = o'.context := by
    intro o' d
    unfold Observer.getConfpath
    cases o'.confpath with
    | some p => exact ⟨rfl, rfl⟩
    | none => cases buildConfpath S o'.config d <;> exact ⟨rfl, rfl⟩
  have h1 := hd (o.assign source config)
  rw [a4, a3] at h1
  unfold Observer.buildContext
  revert h1
  generalize (o.assign source config).getDatapath S = r
  obtain ⟨r1, r2⟩ := r
  intro h1
  cases r1 with
  | error e => exact ⟨h1.1, h1.2, by simp⟩
  | ok r =>
    cases r with
    | none => exact ⟨h1.1, h1.2, by simp⟩
    | some d =>
      have h2 := hc r2 d
      simp only at h1 ⊢
      rw [h1.1, h1.2] at h2
      revert h2
      generalize r2.getConfpath S d = q
      obtain ⟨q1, q2⟩ := q
      intro h2
      cases q1 with
      | error e => exact ⟨h2.1, h2.2, by simp⟩
      | ok r =>
        cases r with
        | none => exact ⟨h2.1, h2.2, by simp⟩
        | some c =>
          refine ⟨h2.1, h2.2, ?_⟩
          intro c' hc'
          simp only at hc'
          injection hc' with hc'
          injection hc' with hc'
          rw [← hc']

theorem Observer.update_keeps (S : Site ι) (o : Observer) (source : Option Path)
    (config : Option ConfArg) :
    ((o.update S source config).2).system = o.system
    ∧ ∀ c, ((o.update S source config).2).context = some c →
        o.context = some c ∨ c.system = c!"mks" := by
  obtain ⟨b1, b2, b3⟩ := Observer.buildContext_keeps S o source config none
  unfold Observer.update
  revert b1 b2 b3
  generalize o.buildContext S source config none = r
  obtain ⟨r1, r2⟩ := r
  intro b1 b2 b3
  simp only at b1 b2 b3
  cases r1 with
  | error e => exact ⟨b1, fun c hc => Or.inl (b2 ▸ hc)⟩
  | ok r =>
    cases r with
    | none => exact ⟨b1, fun c hc => Or.inl (b2 ▸ hc)⟩
    | some c' =>
      refine ⟨b1, fun c hc => Or.inr ?_⟩
      simp only at hc
      injection hc with hc
      subst hc
      exact b3 _ rfl

/-- C102, partial. An observer in the MKS system (in particular one created without naming a system)
shows MKS quantities after any updates; an observer in any system shows quantities in that system
until its first successful update.

Missing: other systems are not kept by an update (`c102_counterexample`). -/
theorem c102_partial (S : Site ι) (config : Option ConfArg) (source : Option Path)
    (system : Option Str) (o : Observer) (ho : Observer.create S config source system = .ok o)
    (us : List (Option Path × Option ConfArg)) :
    (∀ c, o.context = some c → c.system = system.getD c!"mks")
    ∧ (system.getD c!"mks" = c!"mks" →
        ∀ c, (o.updates S us).context = some c → c.system = (o.updates S us).system) := by
  obtain ⟨-, h1, h2, h3, h4⟩ := Observer.create_inv ho
  have hc : ∀ c, o.context = some c → c.system = system.getD c!"mks" := by
    intro c hc
    rw [hc, h3] at h4
    unfold contentOf at h4
    cases hd : buildDatapath S o.source with
    | error e => simp [hd, bind, Except.bind] at h4
    | ok r =>
      cases r with
      | none => simp [hd, bind, Except.bind, pure, Except.pure] at h4
      | some d =>
        cases hcf : buildConfpath S o.config d with
        | error e => simp [hd, hcf, bind, Except.bind] at h4
        | ok r =>
          cases r with
          | none => simp [hd, hcf, bind, Except.bind, pure, Except.pure] at h4
          | some c' =>
            simp [hd, hcf, bind, Except.bind, pure, Except.pure] at h4
            rw [← h4]
  refine ⟨hc, fun hs => ?_⟩
  have key : ∀ (us : List (Option Path × Option ConfArg)) (o : Observer),
      o.system = c!"mks" → (∀ c, o.context = some c → c.system = c!"mks") →
      (o.updates S us).system = c!"mks"
        ∧ ∀ c, (o.updates S us).context = some c → c.system = c!"mks" := by
    intro us
    induction us with
    | nil => intro o h1 h2; exact ⟨h1, h2⟩
    | cons u us ih =>
      intro o h1 h2
      obtain ⟨b1, b2⟩ := Observer.update_keeps S o u.1 u.2
      refine ih _ (b1.trans h1) (fun c hc => ?_)
      rcases b2 c hc with h | h
      · exact h2 c h
      · exact h
  have := key us o (by rw [h3, hs]) (by rw [← hs]; exact hc)
  rw [this.1]
  exact this.2

end

/-! ## Counterexamples -/

/-- Two data directories, each with its own configuration file of the same name, and one without
data. -/
def twoRuns : Site Nat where
  fs := { dirs := [[c!"A"], [c!"B"], [c!"empty"]],
          files := [[c!"A", c!"obs.nc"], [c!"A", c!"run.cfg"], [c!"B", c!"obs.nc"],
            [c!"B", c!"run.cfg"]] }
  cwd := [c!"A"]
  templates := [fun _ => c!"obs.nc"]
  id := 0

/-- An observer of the first directory in the CGS system. -/
def firstRun : Observer :=
  ⟨[c!"A"], some (.name c!"run.cfg"), c!"cgs", some [c!"A", c!"obs.nc"], some [c!"A", c!"run.cfg"],
    some ⟨[c!"A", c!"obs.nc"], [c!"A", c!"run.cfg"], c!"cgs"⟩⟩

/-- C102: after an update that names only a new source, a CGS observer shows MKS quantities. -/
theorem c102_counterexample :
    Observer.create twoRuns (some (.name c!"run.cfg")) (some [c!"A"]) (some c!"cgs") = .ok firstRun
    ∧ ((firstRun.update twoRuns (some [c!"B"]) none).2.context.map Content.system) = some c!"mks"
    ∧ (firstRun.update twoRuns (some [c!"B"]) none).2.system = c!"cgs" := by decide +kernel

/-- C103: the new data are combined with the configuration file of the old directory, though the new
one has its own (and a new observer would use it); and a source without data leaves the observer
showing the old data, though a new observer would show none. -/
theorem c103_counterexample :
    ((firstRun.update twoRuns (some [c!"B"]) none).2.context.map (fun c => (c.data, c.config)))
        = some ([c!"B", c!"obs.nc"], [c!"A", c!"run.cfg"])
    ∧ contentOf twoRuns [c!"B"] (some (.name c!"run.cfg")) c!"mks"
        = .ok (some ⟨[c!"B", c!"obs.nc"], [c!"B", c!"run.cfg"], c!"mks"⟩)
    ∧ (firstRun.update twoRuns (some [c!"empty"]) none)
        = (.ok (), { firstRun with source := [c!"empty"], datapath := none })
    ∧ contentOf twoRuns [c!"empty"] (some (.name c!"run.cfg")) c!"mks" = .ok none := by
  decide +kernel

/-- The premises of `c103_partial` hold if the update names both. -/
example : Harmless firstRun (some [c!"B"], some (.name c!"run.cfg"))
    ∧ (firstRun.update twoRuns (some [c!"B"]) (some (.name c!"run.cfg"))).2.context
      = some ⟨[c!"B", c!"obs.nc"], [c!"B", c!"run.cfg"], c!"mks"⟩ :=
  ⟨Or.inr (Or.inl (by simp)), by decide +kernel⟩

end Verif.Eprem
