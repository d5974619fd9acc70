import Verif.Arrays.Props

/-!
# C40: exactly when integers and slices give the right shape
-/

set_option linter.unusedSimpArgs false

namespace Verif.Arrays

open Verif.Py Verif.Metadata Verif.Numerical

namespace Spec

/-- An entry that numpy accepts for an axis of `n` positions: a position of the axis, or any slice. -/
def Fits (n : Nat) : Ix → Prop
  | .int i => -(n : Int) ≤ i ∧ i < n
  | .slice s => s.step ≠ some 0
  | _ => False

/-- The size that the bounds of a slice suggest if they are taken literally and the step is ignored. -/
def apparent (n : Nat) : Ix → Int
  | .slice s => (if s.stop = some 0 then (n : Int) else s.stop.getD n) - s.start.getD 0
  | _ => 1

/-- The suggested sizes for all axes. -/
def apparents : List Nat → List Ix → List Int
  | n :: shape, x :: xs => apparent n x :: apparents shape xs
  | _, _ => []

end Spec

theorem axisSize_apparent (shape : List Nat) (i n : Nat) (hn : shape[i]? = some n) (x : Ix)
    (h : Spec.Fits n x) : axisSize shape i x = .ok (Spec.apparent n x) := by
  cases x with
  | int i => rfl
  | slice s =>
    unfold axisSize Spec.apparent
    cases hs : s.stop with
    | none =>
      cases hst : s.start <;> simp [hs, hst, axisSize.axisLen, hn, bind, Except.bind, pure, Except.pure]
    | some x =>
      by_cases hx : x = 0
      · subst hx
        cases hst : s.start <;> simp [hs, hst, axisSize.axisLen, hn, bind, Except.bind, pure, Except.pure]
      · cases hst : s.start <;> simp [hs, hst, hx, bind, Except.bind, pure, Except.pure]
  | ellipsis => exact absurd h (by simp [Spec.Fits])
  | list l => exact absurd h (by simp [Spec.Fits])

theorem axisSizes_apparent : ∀ (pre shape : List Nat) (idx : List Ix), List.Forall₂ Spec.Fits shape idx →
    (idx.zipIdx pre.length).mapM (fun p => axisSize (pre ++ shape) p.2 p.1)
      = .ok (Spec.apparents shape idx) := by
  intro pre shape idx h
  induction h generalizing pre with
  | nil => rfl
  | @cons n x shape idx hx _ ih =>
    have hn : (pre ++ n :: shape)[pre.length]? = some n := by simp
    have := ih (pre ++ [n])
    simp only [List.append_assoc, List.singleton_append, List.length_append, List.length_singleton] at this
    rw [List.zipIdx_cons, List.mapM_cons, axisSize_apparent _ _ n hn x hx, this]
    rfl

theorem selectAxis_fits (n : Nat) (x : Ix) (h : Spec.Fits n x) :
    ∃ l b, selectAxis n x = .ok (l, b) ∧ l.length = posSize n x ∧ (b = false → posSize n x = 1) ∧
      (b = true ↔ ∃ s, x = .slice s) := by
  cases x with
  | int i =>
    obtain ⟨h1, h2⟩ := h
    refine ⟨[if i < 0 then i + n else i], false, ?_, rfl, fun _ => rfl, by simp⟩
    simp only [selectAxis]
    rw [if_pos (by split <;> omega)]
  | slice s =>
    obtain ⟨l, hl⟩ := positions_ok s n h
    refine ⟨l, true, ?_, ?_, by simp, by simp⟩
    · simp only [selectAxis, hl, bind, Except.bind, pure, Except.pure]
    · simp only [posSize, hl]
  | ellipsis => exact absurd h (by simp [Spec.Fits])
  | list l => exact absurd h (by simp [Spec.Fits])

theorem selectAxes_fits : ∀ (shape : List Nat) (idx : List Ix), List.Forall₂ Spec.Fits shape idx →
    ∃ sel, selectAxes shape idx = .ok sel ∧ (numpyShape sel).prod = (posSizes shape idx).prod ∧
      (numpyShape sel).length ≤ shape.length ∧
      ((∃ i, Ix.int i ∈ idx) → (numpyShape sel).length < shape.length) := by
  intro shape idx h
  induction h with
  | nil => exact ⟨[], rfl, rfl, by simp [numpyShape], by simp⟩
  | @cons n x shape idx hx _ ih =>
    obtain ⟨sel, e, hp, hl, hs⟩ := ih
    obtain ⟨l, b, e', hlen, hb, hb2⟩ := selectAxis_fits n x hx
    refine ⟨(l, b) :: sel, ?_, ?_, ?_, ?_⟩
    · simp only [selectAxes, e, e', bind, Except.bind, pure, Except.pure]
    · cases b with
      | false =>
        have := hb rfl
        simp only [posSizes, List.prod_cons, this, one_mul]
        rw [← hp]; simp [numpyShape]
      | true =>
        simp only [posSizes, List.prod_cons]
        rw [← hp, ← hlen]; simp [numpyShape]
    · cases b <;> simp [numpyShape] at hl ⊢ <;> omega
    · rintro ⟨i, hi⟩
      cases b with
      | false => simp [numpyShape] at hl ⊢; omega
      | true =>
        obtain ⟨s, rfl⟩ := hb2.1 rfl
        have := hs ⟨i, by simpa using hi⟩
        simp [numpyShape] at this ⊢; omega

theorem apparents_length : ∀ (shape : List Nat) (idx : List Ix), List.Forall₂ Spec.Fits shape idx →
    (Spec.apparents shape idx).length = (posSizes shape idx).length := by
  intro shape idx h
  induction h with
  | nil => rfl
  | cons _ _ ih => simp [Spec.apparents, posSizes, ih]

theorem prod_cast (ns : List Nat) : (ns.map (fun n : Nat => (n : Int))).prod = ((ns.prod : Nat) : Int) := by
  induction ns with
  | nil => rfl
  | cons a l ih => simp only [List.map_cons, List.prod_cons, ih, Nat.cast_mul]

theorem map_toNat (a : List Int) (h : ∀ x ∈ a, 0 ≤ x) :
    (a.map Int.toNat).map (fun n : Nat => (n : Int)) = a := by
  rw [List.map_map]
  conv_rhs => rw [← List.map_id a]
  exact List.map_congr_left (fun x hx => by simp [h x hx])

theorem toNat_map (ns : List Nat) : (ns.map (fun n : Nat => (n : Int))).map Int.toNat = ns := by
  rw [List.map_map]
  conv_rhs => rw [← List.map_id ns]
  exact List.map_congr_left (fun x _ => by simp)

/-- When `reshape` gives the sizes that it should. -/
theorem reshape_iff (es : List Int) (cs : List Nat) :
    reshape cs.prod es = .ok cs ↔
      es = cs.map (fun n : Nat => (n : Int)) ∨
      ∃ pre c post e, cs = pre ++ c :: post ∧ e < 0 ∧ 0 ∉ pre ++ post ∧
        es = pre.map (fun n : Nat => (n : Int)) ++ e :: post.map (fun n : Nat => (n : Int)) := by
  constructor
  · intro h
    unfold reshape at h
    split at h
    · next hf =>
      left
      have hn : ∀ x ∈ es, 0 ≤ x := by
        intro x hx
        have := (List.filter_eq_nil_iff.1 hf) x hx
        simpa using this
      split at h
      · injection h with h
        rw [← h, map_toNat es hn]
      · cases h
    · next e hf =>
      right
      obtain ⟨a, b, rfl, ha, he, hb⟩ := List.filter_eq_cons_iff.1 hf
      have ha' : ∀ x ∈ a, 0 ≤ x := fun x hx => by simpa using ha x hx
      have hb' : ∀ x ∈ b, 0 ≤ x := fun x hx => by
        simpa using (List.filter_eq_nil_iff.1 hb) x hx
      have he' : e < 0 := by simpa using he
      have hk : (a ++ e :: b).filter (0 ≤ ·) = a ++ b := by
        rw [List.filter_append, List.filter_cons, if_neg (by simpa using he'),
          List.filter_eq_self.2 (by simpa using ha'), List.filter_eq_self.2 (by simpa using hb')]
      simp only [hk] at h
      split at h
      · cases h
      · next hne =>
        injection h with h
        have ma : ∀ l : List Int, (∀ x ∈ l, 0 ≤ x) → ∀ f : Int → Nat,
            l.map (fun x => if x < 0 then f x else x.toNat) = l.map Int.toNat := by
          intro l hl f
          exact List.map_congr_left (fun x hx => by rw [if_neg (by have := hl x hx; omega)])
        rw [List.map_append, List.map_cons, ma a ha', ma b hb', if_pos he'] at h
        refine ⟨a.map Int.toNat, _, b.map Int.toNat, e, h.symm, he', ?_, ?_⟩
        · intro h0
          apply hne
          left
          have : (0 : Int) ∈ a ++ b := by
            rw [← map_toNat (a ++ b) (by
              intro x hx
              rcases List.mem_append.1 hx with hx | hx
              · exact ha' x hx
              · exact hb' x hx)]
            rw [← List.map_append] at h0
            exact List.mem_map.2 ⟨0, h0, rfl⟩
          exact List.prod_eq_zero this
        · rw [map_toNat a ha', map_toNat b hb']
    · cases h
  · rintro (rfl | ⟨pre, c, post, e, rfl, he, h0, rfl⟩)
    · exact reshape_sizes cs
    · have nn : ∀ l : List Nat, ∀ x ∈ l.map (fun n : Nat => (n : Int)), 0 ≤ x := by
        intro l x hx
        obtain ⟨n, _, rfl⟩ := List.mem_map.1 hx
        omega
      have hf : (pre.map (fun n : Nat => (n : Int)) ++ e :: post.map (fun n : Nat => (n : Int))).filter (· < 0)
          = [e] := by
        rw [List.filter_append, List.filter_cons, if_pos (by simpa using he),
          List.filter_eq_nil_iff.2 (fun x hx => by have := nn pre x hx; simpa using this),
          List.filter_eq_nil_iff.2 (fun x hx => by have := nn post x hx; simpa using this)]
        rfl
      have hk : (pre.map (fun n : Nat => (n : Int)) ++ e :: post.map (fun n : Nat => (n : Int))).filter (0 ≤ ·)
          = (pre ++ post).map (fun n : Nat => (n : Int)) := by
        rw [List.filter_append, List.filter_cons, if_neg (by simpa using he),
          List.filter_eq_self.2 (fun x hx => by simpa using nn pre x hx),
          List.filter_eq_self.2 (fun x hx => by simpa using nn post x hx), List.map_append]
      have hp : (pre ++ post).prod ≠ 0 := fun h => h0 (List.prod_eq_zero_iff.1 h)
      have ht : (pre ++ c :: post).prod = c * (pre ++ post).prod := by
        simp only [List.prod_append, List.prod_cons]; ring
      have ma : ∀ l : List Nat, ∀ f : Int → Nat,
          (l.map (fun n : Nat => (n : Int))).map (fun x => if x < 0 then f x else x.toNat) = l := by
        intro l f
        rw [List.map_map]
        conv_rhs => rw [← List.map_id l]
        exact List.map_congr_left (fun x _ => by simp)
      unfold reshape
      rw [hf]
      simp only [hk, prod_cast]
      have hm : ((((pre ++ c :: post).prod : Nat) : Int) % (((pre ++ post).prod : Nat) : Int)) = 0 := by
        rw [ht]; push_cast; exact Int.mul_emod_left _ _
      rw [if_neg (by
        rintro (h | h)
        · exact hp (by exact_mod_cast h)
        · exact h hm)]
      rw [List.map_append, List.map_cons, ma, ma, if_pos he, Int.toNat_natCast, ht,
        Nat.mul_div_cancel _ (Nat.pos_of_ne_zero hp)]

/-- **C40** (partial). With one entry for each axis, at least one of which is an integer, the shape is right
*exactly if* the bounds of every slice suggest the right size, or all but one do, none of these is zero,
and the other suggests a negative size. -/
theorem c40_exact_partial (shape : List Nat) (idx : List Ix) (h : List.Forall₂ Spec.Fits shape idx)
    (hi : ∃ i, Ix.int i ∈ idx) :
    subscriptShape shape idx = .ok (Spec.sizes shape idx) ↔
      Spec.apparents shape idx = (Spec.sizes shape idx).map (fun n : Nat => (n : Int)) ∨
      ∃ pre c post e, Spec.sizes shape idx = pre ++ c :: post ∧ e < 0 ∧ 0 ∉ pre ++ post ∧
        Spec.apparents shape idx
          = pre.map (fun n : Nat => (n : Int)) ++ e :: post.map (fun n : Nat => (n : Int)) := by
  rw [← posSizes_eq]
  obtain ⟨sel, e, hp, hl, hs⟩ := selectAxes_fits shape idx h
  have hz := axisSizes_apparent [] shape idx h
  simp only [List.nil_append, List.length_nil] at hz
  have hne : numpyEllipsis shape.length idx = .ok idx := by
    have : idx.count .ellipsis = 0 := by
      rw [List.count_eq_zero]
      intro hm
      obtain ⟨i, hi, e⟩ := List.mem_iff_getElem.1 hm
      have := (List.forall₂_iff_get.1 h).2 i (by have := h.length_eq; omega) hi
      simp only [List.get_eq_getElem, e, Spec.Fits] at this
    unfold numpyEllipsis; rw [this]; rfl
  have : subscriptShape shape idx = reshape (posSizes shape idx).prod (Spec.apparents shape idx) := by
    unfold subscriptShape
    simp only [hne, bind, Except.bind, e, hz]
    rw [if_pos (by have := hs hi; omega), hp]
  rw [this]
  exact reshape_iff _ _

/-- **C40** fails silently: the fourth position backwards and all of three positions give the sizes
exchanged, so that the entries are in the wrong places. -/
theorem c40_silent_counterexample :
    List.Forall₂ Spec.Fits [2, 6, 3] [.int 0, .slice ⟨some 3, none, some (-1)⟩, .slice ⟨none, some 4, none⟩] ∧
    subscriptShape [2, 6, 3] [.int 0, .slice ⟨some 3, none, some (-1)⟩, .slice ⟨none, some 4, none⟩]
      = .ok [1, 3, 4] ∧
    Spec.sizes [2, 6, 3] [.int 0, .slice ⟨some 3, none, some (-1)⟩, .slice ⟨none, some 4, none⟩]
      = [1, 4, 3] := by
  refine ⟨.cons ?_ (.cons ?_ (.cons ?_ .nil)), by decide +kernel, by decide +kernel⟩ <;> simp [Spec.Fits]

/-- An upper bound counted from the end suggests a negative size, which numpy works out: right. -/
example : subscriptShape [2, 5] [.int 0, .slice ⟨none, some (-1), none⟩] = .ok [1, 4] ∧
    Spec.sizes [2, 5] [.int 0, .slice ⟨none, some (-1), none⟩] = [1, 4] := by decide +kernel

/-- Two of them: refused. -/
example : subscriptShape [2, 5, 5] [.int 0, .slice ⟨none, some (-1), none⟩, .slice ⟨none, some (-1), none⟩]
    = .error .valueError := by decide +kernel

end Verif.Arrays
