import Verif.Axes.UnitProps

/-!
# Property C270: observing at several times
-/

set_option linter.unusedSimpArgs false
set_option linter.unusedSectionVars false

namespace Verif.Axes

open Verif.Py Verif.Iterables Verif.Measurable Verif.Numerical

/-- Observations at single times, one after another. -/
def eachTime (g : Grid) (rows : List (List Rat)) (more : Bool) (pairs : List (Int × Rat)) (shell : Data Int) (radius : Option Rat) :
    Res (List (List Rat)) :=
  (pairs.mapM (fun p => observe g rows more ⟨[p.1], [p.2]⟩ shell radius)).map List.flatten

/-- The only exception is the one for a missing position. -/
def OnlyIndex {α : Type} (r : Res α) : Prop := ∀ e, r = .error e → e = .indexError

theorem getItem_onlyIndex {α : Type} (l : List α) (i : Int) : OnlyIndex (getItem l i) := by
  intro e h
  unfold getItem at h
  generalize (if i < 0 then i + (l.length : Int) else i) = j at h
  simp only at h
  split at h
  · exact (Except.error.inj h).symm
  · split at h
    · exact absurd h (by simp)
    · exact (Except.error.inj h).symm

theorem mapM_onlyIndex {α β : Type} (f : α → Res β) (l : List α) (h : ∀ a, OnlyIndex (f a)) : OnlyIndex (l.mapM f) := by
  induction l with
  | nil => intro e he; exact absurd he (by simp [pure, Except.pure])
  | cons a l ih =>
    intro e he
    simp only [List.mapM_cons, bind, Except.bind, pure, Except.pure] at he
    cases ha : f a with
    | error e' =>
      rw [ha] at he
      exact (Except.error.inj he) ▸ h a e' ha
    | ok v =>
      rw [ha] at he
      simp only at he
      cases hl : l.mapM f with
      | error e' =>
        rw [hl] at he
        exact (Except.error.inj he) ▸ ih e' hl
      | ok vs => rw [hl] at he; exact absurd he (by simp)

/-- One step for all members after another, or all steps for one member after another. -/
theorem mapM_twice {α β γ : Type} (f : α → Res β) (h : β → Res γ) (hf : ∀ a, OnlyIndex (f a)) (hh : ∀ b, OnlyIndex (h b)) (l : List α) :
    (l.mapM f).bind (fun bs => bs.mapM h) = l.mapM (fun a => (f a).bind h) := by
  induction l with
  | nil => rfl
  | cons a l ih =>
    have hm := mapM_onlyIndex f l hf
    have hmm : ∀ bs : List β, OnlyIndex (bs.mapM h) := fun bs => mapM_onlyIndex h bs hh
    simp only [List.mapM_cons, bind, Except.bind, pure, Except.pure] at ih ⊢
    cases ha : f a with
    | error e => rfl
    | ok b =>
      simp only
      rw [← ih]
      cases hl : l.mapM f with
      | error e =>
        cases hb : h b with
        | error e' => simp only [hh b e' hb, hm e hl]
        | ok c => rfl
      | ok bs => simp only [List.mapM_cons, bind, Except.bind, pure, Except.pure]

theorem mapM_singletons {α β : Type} (f : α → Res β) (l : List α) :
    (l.mapM (fun a => (f a).map (fun b => [b]))).map List.flatten = l.mapM f := by
  induction l with
  | nil => rfl
  | cons a l ih =>
    simp only [List.mapM_cons, bind, Except.bind, pure, Except.pure]
    rw [← ih]
    generalize l.mapM (fun a => (f a).map (fun b => [b])) = m
    cases f a with
    | error e => rfl
    | ok b => cases m <;> rfl

theorem subscript_each (c : List (List Rat)) (is js : List Int) :
    subscript c is js = (is.mapM (fun i => subscript c [i] js)).map List.flatten := by
  have e1 : subscript c is js = (is.mapM (getItem c)).bind (fun bs => bs.mapM (fun r => js.mapM (getItem r))) := by
    unfold subscript subscriptRows subscriptColumns
    cases is.mapM (getItem c) <;> rfl
  have e2 : ∀ i, subscript c [i] js = ((getItem c i).bind (fun r => js.mapM (getItem r))).map (fun b => [b]) := by
    intro i
    unfold subscript subscriptRows subscriptColumns
    simp only [List.mapM_cons, List.mapM_nil, bind, Except.bind, pure, Except.pure]
    cases getItem c i with
    | error e => rfl
    | ok r =>
      simp only [List.mapM_cons, List.mapM_nil, bind, Except.bind, pure, Except.pure]
      cases js.mapM (getItem r) <;> rfl
  simp only [e1, e2]
  rw [mapM_singletons, mapM_twice _ _ (getItem_onlyIndex c) (fun r => mapM_onlyIndex _ _ (getItem_onlyIndex r))]

theorem subscriptRows_each (c : List (List Rat)) (is : List Int) :
    subscriptRows c is = (is.mapM (fun i => subscriptRows c [i])).map List.flatten := by
  have e2 : ∀ i, subscriptRows c [i] = (getItem c i).map (fun b => [b]) := by
    intro i
    unfold subscriptRows
    simp only [List.mapM_cons, List.mapM_nil, bind, Except.bind, pure, Except.pure]
    cases getItem c i <;> rfl
  simp only [e2]
  rw [mapM_singletons]
  rfl

theorem mapM_constant_error {α β : Type} (e : Err) (l : List α) (h : l ≠ []) : l.mapM (fun _ => (.error e : Res β)) = .error e := by
  cases l with
  | nil => exact absurd rfl h
  | cons a l => rfl

/-- **C270, times of the dataset.** If all requested times are times of the dataset, for all shells and any radius: the observation
consists of those at the single times, and fails if one of them does. -/
theorem c270_partial_stored (g : Grid) (rows : List (List Rat)) (more : Bool) (pairs : List (Int × Rat)) (hne : pairs ≠ [])
    (hmem : ∀ p ∈ pairs, p.2 ∈ g.times) (shell : Data Int) (radius : Option Rat) :
    observe g rows more ⟨pairs.map (·.1), pairs.map (·.2)⟩ shell radius = eachTime g rows more pairs shell radius := by
  have hn : g.timeNeeded ⟨pairs.map (·.1), pairs.map (·.2)⟩ = false := by
    unfold Grid.timeNeeded
    rw [Bool.not_eq_false', List.all_eq_true]
    intro t ht
    obtain ⟨p, hp, rfl⟩ := List.mem_map.1 ht
    exact contains_mem (hmem p hp)
  have h1 : ∀ p ∈ pairs, g.timeNeeded ⟨[p.1], [p.2]⟩ = false := by
    intro p hp
    unfold Grid.timeNeeded
    simp [contains_mem (hmem p hp)]
  have e1 : ∀ p ∈ pairs, observe g rows more ⟨[p.1], [p.2]⟩ shell radius = (match g.overShell rows shell with
      | .error e => .error e
      | .ok b => match g.overRadius b radius with
        | .error e => .error e
        | .ok c => if (g.shellNeeded shell || radius.isSome) = true then subscriptRows c [p.1] else subscript c [p.1] shell.points) := by
    intro p hp
    unfold observe Grid.overTime
    simp only [h1 p hp, Bool.false_eq_true, if_false]
    cases g.overShell rows shell with
    | error e => rfl
    | ok b =>
      simp only
      cases g.overRadius b radius with
      | error e => rfl
      | ok c => simp only; cases (g.shellNeeded shell || radius.isSome) <;> rfl
  have e0 : observe g rows more ⟨pairs.map (·.1), pairs.map (·.2)⟩ shell radius = (match g.overShell rows shell with
      | .error e => .error e
      | .ok b => match g.overRadius b radius with
        | .error e => .error e
        | .ok c => if (g.shellNeeded shell || radius.isSome) = true then subscriptRows c (pairs.map (·.1))
          else subscript c (pairs.map (·.1)) shell.points) := by
    unfold observe Grid.overTime
    simp only [hn, Bool.false_eq_true, if_false]
    cases g.overShell rows shell with
    | error e => rfl
    | ok b =>
      simp only
      cases g.overRadius b radius with
      | error e => rfl
      | ok c => simp only; cases (g.shellNeeded shell || radius.isSome) <;> rfl
  have hcongr : ∀ f : Int × Rat → Res (List (List Rat)), (∀ p ∈ pairs, observe g rows more ⟨[p.1], [p.2]⟩ shell radius = f p) →
      eachTime g rows more pairs shell radius = (pairs.mapM f).map List.flatten := by
    intro f hf
    have := mapM_images f (fun p => observe g rows more ⟨[p.1], [p.2]⟩ shell radius) id pairs (fun p hp => by
      rw [hf p hp]; cases f p <;> rfl)
    unfold eachTime
    rw [this]
    cases pairs.mapM f <;> simp [Except.map]
  rw [e0, hcongr _ e1]
  cases g.overShell rows shell with
  | error e => simp only; rw [mapM_constant_error e pairs hne]; rfl
  | ok b =>
    simp only
    cases g.overRadius b radius with
    | error e => simp only; rw [mapM_constant_error e pairs hne]; rfl
    | ok c =>
      simp only
      cases (g.shellNeeded shell || radius.isSome)
      · simp only [Bool.false_eq_true, if_false]
        rw [subscript_each, mapM_of_map]
      · simp only [if_true]
        rw [subscriptRows_each, mapM_of_map]

/-- **C270, times between those of the dataset.** Without a radius, for shells of the dataset and times that are no closer to a time of
the dataset than the tolerance unless they are one (then the position is its position): the observation has one row for each requested
time, which is that of the observation at this time. -/
theorem c270_partial_between (g : Grid) (ht : g.times.Pairwise (· < ·)) (hts : g.times ≠ []) (rows : List (List Rat))
    (hl : rows.length = g.times.length) (hw : ∀ r ∈ rows, r.length = g.shells.length) (more : Bool) (pairs : List (Int × Rat))
    (hp : ∀ p ∈ pairs, contains g.times p.2 = true → getItem g.times p.1 = .ok p.2) (shell : Data Int)
    (hs : g.shellNeeded shell = false) (js : List Nat) (hj : shell.points = js.map Int.ofNat) (hjs : ∀ j ∈ js, j < g.shells.length) :
    observe g rows more ⟨pairs.map (·.1), pairs.map (·.2)⟩ shell none = eachTime g rows more pairs shell none ∧
      ∃ f : Int × Rat → List Rat, (∀ p ∈ pairs, observe g rows more ⟨[p.1], [p.2]⟩ shell none = .ok [f p]) ∧
        observe g rows more ⟨pairs.map (·.1), pairs.map (·.2)⟩ shell none = .ok (pairs.map f) := by
  suffices H : ∃ f : Int × Rat → List Rat, (∀ p ∈ pairs, observe g rows more ⟨[p.1], [p.2]⟩ shell none = .ok [f p]) ∧
        observe g rows more ⟨pairs.map (·.1), pairs.map (·.2)⟩ shell none = .ok (pairs.map f) by
    refine ⟨?_, H⟩
    obtain ⟨f, h1, h2⟩ := H
    rw [h2, eachTime]
    have := mapM_images (fun p => (.ok [f p] : Res (List (List Rat)))) (fun p => observe g rows more ⟨[p.1], [p.2]⟩ shell none) id pairs
      (fun p hp => by rw [h1 p hp]; rfl)
    rw [this]
    clear this h1 h2 hp
    induction pairs with
    | nil => rfl
    | cons p pairs ih =>
      rw [List.mapM_cons]
      simp only [bind, Except.bind, pure, Except.pure]
      cases hm : pairs.mapM (fun p => (.ok [f p] : Res (List (List Rat)))) with
      | error e => rw [hm] at ih; exact absurd ih (by simp [Except.map])
      | ok ws =>
        rw [hm] at ih
        simp only [Except.map, Except.ok.injEq, List.map_id_fun, id] at ih ⊢
        rw [List.map_cons, ih]
        rfl
  -- the row of all shells at a time
  have hcol : ∀ t, ∃ v, (columns g.shells.length rows).mapM (fun c => applyOne c g.times t true) = .ok v
      ∧ v.length = g.shells.length := by
    intro t
    have : ∀ c ∈ columns g.shells.length rows, ∃ v, applyOne c g.times t true = .ok v := by
      intro c hc
      have hlen : c.length = g.times.length := by
        obtain ⟨j, hj, rfl⟩ := List.mem_map.1 hc
        rw [List.mem_range] at hj
        rw [← hl]
        clear hc hl
        induction rows with
        | nil => rfl
        | cons r rows ih =>
          have := hw r List.mem_cons_self
          rw [List.filterMap_cons, List.getElem?_eq_getElem (by omega : j < r.length)]
          simp only [List.length_cons]
          rw [ih (fun x hx => hw x (List.mem_cons_of_mem _ hx))]
      have hcne : c ≠ [] := by
        rw [← List.length_pos_iff, hlen]
        exact List.length_pos_of_ne_nil hts
      obtain ⟨c1, c2, c3, c4, -⟩ := (c92_partial (K := Rat)).1 c g.times t true hlen ht
      rcases locate g.times hts t with ⟨i, hi, e⟩ | ⟨i, hi, e1, e2⟩ | e | e
      · exact ⟨_, c1 i hi (by omega) e⟩
      · exact ⟨_, c2 i hi (by omega) e1 e2⟩
      · exact ⟨_, c3 hcne hts e⟩
      · exact ⟨_, c4 hcne hts e⟩
    have gen : ∀ cs : List (List Rat), (∀ c ∈ cs, ∃ v, applyOne c g.times t true = .ok v) →
        ∃ v, cs.mapM (fun c => applyOne c g.times t true) = .ok v ∧ v.length = cs.length := by
      intro cs
      induction cs with
      | nil => intro _; exact ⟨[], rfl, rfl⟩
      | cons c cs ih =>
        intro h
        obtain ⟨v, hv⟩ := h c List.mem_cons_self
        obtain ⟨vs, hvs, hlv⟩ := ih (fun x hx => h x (List.mem_cons_of_mem _ hx))
        exact ⟨v :: vs, by simp only [List.mapM_cons, hv, hvs, bind, Except.bind, pure, Except.pure], by simp [hlv]⟩
    obtain ⟨v, hv, hlv⟩ := gen _ this
    exact ⟨v, hv, by rw [hlv, columns, List.length_map, List.length_range]⟩
  choose row hrow hrl using hcol
  -- at a time of the dataset it is the stored row
  have hstored : ∀ p ∈ pairs, contains g.times p.2 = true → getItem rows p.1 = .ok (row p.2) := by
    intro p hpp hc
    have hg := hp p hpp hc
    have hr : ∃ r, getItem rows p.1 = .ok r := by
      rcases getItem_isOk g.times rows hl.symm p.1 with ⟨x, y, -, e⟩ | ⟨e, -⟩
      · exact ⟨y, e⟩
      · rw [e] at hg; exact absurd hg (by simp)
    obtain ⟨r, hr⟩ := hr
    rw [hr]
    congr 1
    have hmr := getItem_mem hr
    have hlr := hw r hmr
    -- position
    obtain ⟨k, hk, hk1, hk2⟩ : ∃ k, ∃ _ : k < g.times.length, g.times[k] = p.2 ∧ rows[k]? = some r := by
      unfold getItem at hg hr
      rw [hl] at hr
      generalize (if p.1 < 0 then p.1 + (g.times.length : Int) else p.1) = j at hg hr
      simp only at hg hr
      split at hg
      · exact absurd hg (by simp)
      next hj0 =>
      rw [if_neg hj0] at hr
      split at hg
      · next x hx =>
        obtain ⟨hlt, e⟩ := List.getElem?_eq_some_iff.1 hx
        split at hr
        · next y hy =>
          refine ⟨j.toNat, hlt, e.trans (Except.ok.inj hg), ?_⟩
          rw [hy, Except.ok.inj hr]
        · exact absurd hr (by simp)
      · exact absurd hg (by simp)
    have hk3 : k < rows.length := by omega
    have hk4 : rows[k] = r := by
      rw [List.getElem?_eq_getElem hk3] at hk2
      exact Option.some.inj hk2
    refine List.ext_getElem (by rw [hlr, hrl]) fun j hj1 hj2 => ?_
    have hjn : j < g.shells.length := by omega
    have hcj : j < (columns g.shells.length rows).length := by
      rw [columns, List.length_map, List.length_range]; exact hjn
    have := ((mapM_ok_iff _ _ _).1 (hrow p.2)).2 j hcj hj2
    have hcolj := columns_getElem g.shells.length rows j hcj
    have hcl : ∀ (rs : List (List Rat)), (∀ x ∈ rs, j < x.length) → (rs.filterMap (fun x => x[j]?)).length = rs.length
        ∧ ∀ i (hi : i < rs.length) (hi' : i < (rs.filterMap (fun x => x[j]?)).length), rs[i][j]? = some (rs.filterMap (fun x => x[j]?))[i] := by
      intro rs
      induction rs with
      | nil => intro _; exact ⟨rfl, fun i hi => absurd hi (by simp)⟩
      | cons x rs ih =>
        intro hx
        have hxj := hx x List.mem_cons_self
        obtain ⟨i1, i2⟩ := ih (fun y hy => hx y (List.mem_cons_of_mem _ hy))
        have hfm : (x :: rs).filterMap (fun x => x[j]?) = x[j] :: rs.filterMap (fun x => x[j]?) := by
          rw [List.filterMap_cons, List.getElem?_eq_getElem hxj]
        constructor
        · rw [hfm, List.length_cons, List.length_cons, i1]
        · intro i hi hi'
          cases i with
          | zero =>
            simp only [hfm, List.getElem_cons_zero]
            exact List.getElem?_eq_getElem hxj
          | succ i =>
            simp only [hfm, List.getElem_cons_succ]
            exact i2 i (by simpa using hi) (by rw [hfm] at hi'; simpa using hi')
    obtain ⟨l1, l2⟩ := hcl rows (fun x hx => by rw [hw x hx]; exact hjn)
    rw [hcolj] at this
    have hval := ((c92_partial (K := Rat)).1 (rows.filterMap (fun x => x[j]?)) g.times p.2 true (by rw [l1, hl]) ht).1 k hk
      (by rw [l1]; exact hk3) hk1
    rw [hval, Except.ok.injEq] at this
    rw [← this]
    have := l2 k hk3 (by rw [l1]; exact hk3)
    rw [hk4, List.getElem?_eq_getElem hj1] at this
    exact Option.some.inj this
  -- the chosen shells
  have hpick : ∀ v : List Rat, v.length = g.shells.length → ∃ w, shell.points.mapM (getItem v) = .ok w := by
    intro v hv
    rw [hj]
    clear hj
    induction js with
    | nil => exact ⟨[], rfl⟩
    | cons j js ih =>
      obtain ⟨w, hw'⟩ := ih (fun i hi => hjs i (List.mem_cons_of_mem _ hi))
      have hjv := hjs j List.mem_cons_self
      exact ⟨_, by simp only [List.map_cons, List.mapM_cons, hw', Int.ofNat_eq_natCast, getItem_nat v j (by omega), bind, Except.bind,
        pure, Except.pure]; rfl⟩
  choose pick hpk using fun t => hpick (row t) (hrl t)
  have hcols : ∀ ts : List Rat, subscriptColumns (ts.map row) shell.points = .ok (ts.map pick) := by
    intro ts
    unfold subscriptColumns
    induction ts with
    | nil => rfl
    | cons t ts ih => simp only [List.map_cons, List.mapM_cons, hpk, ih, bind, Except.bind, pure, Except.pure]
  -- an observation at any list of times
  have hobs : ∀ qs : List (Int × Rat), (∀ q ∈ qs, q ∈ pairs) →
      observe g rows more ⟨qs.map (·.1), qs.map (·.2)⟩ shell none = .ok (qs.map (fun q => pick q.2)) := by
    intro qs hq
    have hshell : ∀ r, g.overShell r shell = .ok r := by
      intro r; unfold Grid.overShell; rw [hs]; rfl
    unfold observe
    by_cases hn : g.timeNeeded ⟨qs.map (·.1), qs.map (·.2)⟩ = true
    · have : g.overTime rows ⟨qs.map (·.1), qs.map (·.2)⟩ = .ok (qs.map (fun q => row q.2)) := by
        unfold Grid.overTime interpolateRows
        rw [if_pos hn]
        simp only
        clear hn hq
        induction qs with
        | nil => rfl
        | cons q qs ih =>
          simp only [List.map_cons, List.mapM_cons, bind, Except.bind, pure, Except.pure] at ih ⊢
          rw [ih]
          simp [hrow]
      rw [this]
      simp only [hshell, Grid.overRadius, hn, hs, Option.isSome_none, Bool.or_self]
      have := hcols (qs.map (·.2))
      rw [List.map_map, List.map_map] at this
      exact this
    · have hn' := Bool.eq_false_iff.2 hn
      have hall : ∀ q ∈ qs, contains g.times q.2 = true := by
        intro q hqq
        unfold Grid.timeNeeded at hn'
        rw [Bool.not_eq_false', List.all_eq_true] at hn'
        exact hn' q.2 (List.mem_map.2 ⟨q, hqq, rfl⟩)
      have : subscriptRows rows (qs.map (·.1)) = .ok (qs.map (fun q => row q.2)) := by
        unfold subscriptRows
        clear hn hn'
        induction qs with
        | nil => rfl
        | cons q qs ih =>
          simp only [List.map_cons, List.mapM_cons, bind, Except.bind, pure, Except.pure]
          rw [hstored q (hq q List.mem_cons_self) (hall q List.mem_cons_self),
            ih (fun x hx => hq x (List.mem_cons_of_mem _ hx)) (fun x hx => hall x (List.mem_cons_of_mem _ hx))]
      unfold Grid.overTime
      simp only [hn', Bool.false_eq_true, if_false, hshell, Grid.overRadius, hs, Option.isSome_none, Bool.or_self, subscript, this]
      have := hcols (qs.map (·.2))
      rw [List.map_map, List.map_map] at this
      exact this
  refine ⟨fun q => pick q.2, fun p hp' => ?_, hobs pairs (fun _ h => h)⟩
  exact hobs [p] (fun q hq => by rw [List.mem_singleton] at hq; exact hq ▸ hp')

/-- Three times of which one is between those of the dataset. -/
example : observe ⟨[0, 10, 20], [0, 1], [[1, 2], [1, 2], [1, 2]]⟩ [[1, 2], [3, 4], [5, 8]] false ⟨[0, 1, 2], [0, 15, 20]⟩
    ⟨[1, 0], [1, 0]⟩ none = .ok [[2, 1], [6, 4], [8, 5]] := by decide +kernel

example : ∀ p ∈ [((0 : Int), (0 : Rat)), (1, 15), (2, 20)], contains [0, 10, 20] p.2 = true → getItem [(0 : Rat), 10, 20] p.1 = .ok p.2 := by
  decide +kernel

/-- **C270 fails in the code** for a time that differs from one of the dataset by less than the tolerance: alone, the stored value is
observed; together with a time in between, the interpolated value. With a radius, two times between those of the dataset use the radii
of the first two times of the dataset, whichever they are. -/
theorem c270_counterexample :
    observe ⟨[0, 100000, 200000], [0], [[1], [1], [1]]⟩ [[0], [100000], [0]] false ⟨[1], [100001]⟩ ⟨[0], [0]⟩ none = .ok [[100000]] ∧
    observe ⟨[0, 100000, 200000], [0], [[1], [1], [1]]⟩ [[0], [100000], [0]] false ⟨[1, 1], [100001, 150000]⟩ ⟨[0], [0]⟩ none
      = .ok [[99999], [50000]] ∧
    observe ⟨[0, 10, 20], [0, 1], [[1, 2], [1, 3], [1, 5]]⟩ [[1, 2], [1, 3], [1, 5]] true ⟨[1], [15]⟩ ⟨[0, 1], [0, 1]⟩ (some (3 / 2))
      = .ok [[5 / 2]] ∧
    observe ⟨[0, 10, 20], [0, 1], [[1, 2], [1, 3], [1, 5]]⟩ [[1, 2], [1, 3], [1, 5]] true ⟨[0, 1], [5, 15]⟩ ⟨[0, 1], [0, 1]⟩ (some (3 / 2))
      = .ok [[7 / 4], [7 / 4]] := by
  refine ⟨?_, ?_, ?_, ?_⟩ <;> decide +kernel

end Verif.Axes
