import Verif.Helpers.Model

/-!
# Helper functions: properties C217-C223
-/

set_option linter.unusedSimpArgs false

namespace Verif.Helpers

open Verif.Py
open Verif.Shapes (Arr)

/-! ## C217: restricting an array along an axis -/

variable {K : Type}

/-- The axis that a number means in an array with `n` axes, `None` being the last one. -/
def Axis (n : Nat) (axis : Option Int) (k : Nat) : Prop := k < n ∧ (axis = none ∧ k + 1 = n ∨ axis = some (k : Int) ∨ axis = some ((k : Int) - n))

/-- The position that an index means along an axis of size `n`. -/
def Means (n : Nat) (i : Int) (k : Nat) : Prop := k < n ∧ (i = k ∨ i = (k : Int) - n)

theorem mapM_ok {α β : Type} {f : α → Res β} {g : α → β} : ∀ {l : List α}, (∀ a ∈ l, f a = .ok (g a)) → l.mapM f = .ok (l.map g)
  | [], _ => rfl
  | a :: l, h => by
    rw [List.mapM_cons, h a (by simp), mapM_ok (fun b hb => h b (by simp [hb]))]; rfl

theorem normAxis_of {n k : Nat} {axis : Option Int} (h : Axis n axis k) : normAxis n (axis.getD (-1)) = .ok k := by
  obtain ⟨hk, ⟨rfl, h⟩ | rfl | rfl⟩ := h <;> unfold normAxis <;> simp only [Option.getD_none, Option.getD_some]
  · rw [if_neg (by omega), if_pos (by omega)]
    congr 1; omega
  · rw [if_pos (by omega)]; rfl
  · rw [if_neg (by omega), if_pos (by omega)]
    congr 1; omega

theorem position_of {n k : Nat} {i : Int} (h : Means n i k) : position n i = some k := by
  obtain ⟨hk, rfl | rfl⟩ := h <;> unfold position
  · rw [if_pos (by omega)]; rfl
  · rw [if_neg (by omega), if_pos (by omega)]
    congr 1; omega

theorem positions_of {n : Nat} : ∀ {is : List Int} {ks : List Nat}, List.Forall₂ (Means n) is ks →
    is.mapM (position n) = some ks
  | _, _, .nil => rfl
  | _, _, .cons h t => by
    rw [List.mapM_cons, position_of h, positions_of t]; rfl

theorem insertIdx_eraseIdx_set (l : List Nat) (k x : Nat) (hk : k < l.length) :
    (l.eraseIdx k).insertIdx k x = l.set k x := by
  induction l generalizing k with
  | nil => simp at hk
  | cons a l ih =>
    cases k with
    | zero => simp
    | succ k => simp at hk; simp [ih k hk]

/-- **C217.** `Restriction.apply` gives an array of the same shape, but for the size along the axis, which is the number of
indices; its entry at a position is that of the original with the position along the axis replaced by the index there. -/
theorem c217_restrict (a : Arr K) (axis : Option Int) (k n : Nat) (hax : Axis a.shape.length axis k)
    (hn : a.shape[k]? = some n) (indices : List Int) (ks : List Nat) (hi : List.Forall₂ (Means n) indices ks) :
    ∃ r, restrict indices a axis = .ok r ∧ r.shape = a.shape.set k indices.length ∧
      ∀ i : List Nat, i.length = a.shape.length → ∀ j m, i[k]? = some j → ks[j]? = some m →
        r.entry i = a.entry (i.set k m) := by
  have hk := hax.1
  have hlen : indices.length = ks.length := hi.length_eq
  have hpos : 0 < a.shape.length := by omega
  have h0 : normAxis a.shape.length 0 = .ok 0 := by
    unfold normAxis; rw [if_pos (by omega)]; rfl
  have h1 : moveaxis a (axis.getD (-1)) 0 = .ok ⟨n :: a.shape.eraseIdx k,
      fun i => a.entry ((i.eraseIdx 0).insertIdx k (i.getD 0 0))⟩ := by
    unfold moveaxis
    rw [normAxis_of hax, h0]
    simp only [bind, Except.bind, pure, Except.pure, List.getD_eq_getElem?_getD, hn, Option.getD_some]
    rfl
  have h2 : takeFirst (⟨n :: a.shape.eraseIdx k, fun i => a.entry ((i.eraseIdx 0).insertIdx k (i.getD 0 0))⟩ : Arr K) indices
      = .ok ⟨ks.length :: a.shape.eraseIdx k,
        fun i => a.entry (((ks.getD (i.getD 0 0) 0 :: i.drop 1).eraseIdx 0).insertIdx k
          ((ks.getD (i.getD 0 0) 0 :: i.drop 1).getD 0 0))⟩ := by
    unfold takeFirst
    simp only [positions_of hi]
  have hl : (ks.length :: a.shape.eraseIdx k).length = a.shape.length := by
    simp [List.length_eraseIdx, hk]; omega
  unfold restrict
  simp only [h1, h2, bind, Except.bind]
  unfold moveaxis
  simp only [hl, h0, normAxis_of hax, bind, Except.bind, pure, Except.pure]
  refine ⟨_, rfl, ?_, ?_⟩
  · simp only [List.eraseIdx_zero, List.tail_cons, List.getD_cons_zero]
    rw [insertIdx_eraseIdx_set _ _ _ hk, hlen]
  · intro i hil j m hj hm
    have hki : k < i.length := by omega
    simp only [List.getD_eq_getElem?_getD, hj, Option.getD_some, List.insertIdx_zero, List.getElem?_cons_zero,
      List.drop_succ_cons, List.drop_zero, List.eraseIdx_zero, List.tail_cons, hm]
    rw [insertIdx_eraseIdx_set _ _ _ hki]

/-- **C217.** An index outside of the axis, or an axis that the array does not have, is refused. -/
theorem c217_refused (a : Arr K) (axis : Option Int) (indices : List Int) :
    ((∀ k, ¬ Axis a.shape.length axis k) → restrict indices a axis = .error (.named "AxisError")) ∧
      ∀ k n, Axis a.shape.length axis k → a.shape[k]? = some n → (∃ i ∈ indices, ∀ m, ¬ Means n i m) →
        restrict indices a axis = .error .indexError := by
  constructor
  · intro h
    have : normAxis a.shape.length (axis.getD (-1)) = .error (.named "AxisError") := by
      unfold normAxis
      rw [if_neg, if_neg]
      · rintro ⟨h1, h2⟩
        refine h (axis.getD (-1) + a.shape.length).toNat ⟨by omega, ?_⟩
        cases axis with
        | none => left; simp at h2 ⊢; omega
        | some x => right; right; simp at h1 h2 ⊢; omega
      · rintro ⟨h1, h2⟩
        refine h (axis.getD (-1)).toNat ⟨by omega, ?_⟩
        cases axis with
        | none => simp at h1
        | some x => right; left; simp at h1 h2 ⊢; omega
    unfold restrict moveaxis
    simp only [this, bind, Except.bind]
  · intro k n hax hn ⟨i, hi, hno⟩
    have hk := hax.1
    have h0 : normAxis a.shape.length 0 = .ok 0 := by
      unfold normAxis; rw [if_pos (by omega)]; rfl
    have hp : position n i = none := by
      unfold position
      rw [if_neg, if_neg]
      · rintro ⟨h1, h2⟩; exact hno (i + n).toNat ⟨by omega, by omega⟩
      · rintro ⟨h1, h2⟩; exact hno i.toNat ⟨by omega, by omega⟩
    have hm : indices.mapM (position n) = none := by
      clear hax hn hk h0
      induction indices with
      | nil => simp at hi
      | cons x xs ih =>
        rw [List.mapM_cons]
        rcases List.mem_cons.1 hi with rfl | hi
        · rw [hp]; rfl
        · rw [ih hi]
          cases position n x <;> rfl
    unfold restrict moveaxis
    simp only [normAxis_of hax, h0, bind, Except.bind, pure, Except.pure, List.getD_eq_getElem?_getD, hn, Option.getD_some]
    unfold takeFirst
    simp only [List.insertIdx_zero, hm]

/-- A 2 by 3 array, restricted to its last two columns; the indices count from the end and from the start. -/
example : ((restrict [1, -1] (⟨[2, 3], fun i => i⟩ : Arr (List Nat)) none).map
    (fun r => (r.shape, r.entry [0, 0], r.entry [1, 1]))) = .ok ([2, 2], [0, 1], [1, 2]) := by decide +kernel

example : Axis 2 none 1 ∧ List.Forall₂ (Means 3) [1, -1] [1, 2] :=
  ⟨⟨by omega, Or.inl ⟨rfl, rfl⟩⟩, .cons ⟨by omega, by omega⟩ (.cons ⟨by omega, by omega⟩ .nil)⟩

/-! ## C218: replacing characters in a string -/

/-- Every character that the table has is replaced by its text, all at the same time. -/
def substitute (table : List (Char × Str)) (s : Str) : Str :=
  s.flatMap (fun c => (table.lookup c).getD [c])

theorem replaceText_char (k : Char) (new : Str) : ∀ (n : Nat) (s : Str), s.length ≤ n →
    replaceText [k] new n s = s.flatMap (fun c => if c = k then new else [c])
  | 0, s, h => by
    have : s = [] := List.length_eq_zero_iff.1 (by omega)
    subst this; rfl
  | n + 1, [], _ => rfl
  | n + 1, c :: s, h => by
    simp only [replaceText, List.flatMap_cons]
    by_cases hc : c = k
    · subst hc
      simp only [List.isPrefixOf, beq_self_eq_true, Bool.true_and, if_true, List.length_singleton, List.drop_succ_cons, List.drop_zero]
      rw [replaceText_char c new n s (by simp at h; omega)]
    · have : (k == c) = false := by simpa using fun h => hc h.symm
      simp only [List.isPrefixOf, this, Bool.false_and, if_neg hc]
      rw [replaceText_char k new n s (by simp at h; omega)]
      simp

theorem replace_char (k : Char) (new s : Str) : replace [k] new s = s.flatMap (fun c => if c = k then new else [c]) := by
  unfold replace
  rw [if_neg (by simp)]
  exact replaceText_char k new _ s (Nat.le_refl _)

theorem strip_char {k : Char} (h : Symbolic.isSpace k = false) : Symbolic.strip [k] = [k] := by
  simp [Symbolic.strip, List.dropWhile, h]

/-- **C218 (partial).** If the keys are different single characters other than white space, and no text that is put in
contains a later key, all characters are replaced as in the table. -/
theorem c218_partial : ∀ (table : List (Char × Str)) (s : Str), (∀ p ∈ table, Symbolic.isSpace p.1 = false) →
    table.Pairwise (fun p q => q.1 ≠ p.1 ∧ q.1 ∉ p.2) →
    batchReplace s (table.map (fun p => ([p.1], p.2))) = substitute table s
  | [], s, _, _ => by simp [batchReplace, substitute]
  | (k, new) :: table, s, hs, hp => by
    rw [List.pairwise_cons] at hp
    have ih := c218_partial table (replace [k] new s) (fun p h => hs p (by simp [h])) hp.2
    simp only [batchReplace, List.map_cons, List.foldl_cons] at ih ⊢
    rw [strip_char (hs (k, new) (by simp)), ih, replace_char]
    unfold substitute
    rw [List.flatMap_assoc]
    congr 1
    funext c
    by_cases hc : c = k
    · subst hc
      simp only [if_true, List.lookup_cons, beq_self_eq_true, Option.getD_some]
      have : ∀ d ∈ new, table.lookup d = none := by
        intro d hd
        rw [List.lookup_eq_none_iff]
        intro p hp'
        simp only [bne_iff_ne, ne_eq, beq_eq_false_iff_ne]
        rintro rfl
        exact (hp.1 p hp').2 hd
      clear ih hp hs
      induction new with
      | nil => rfl
      | cons d new ih' =>
        rw [List.flatMap_cons, this d (by simp), ih' (fun e he => this e (by simp [he]))]
        rfl
    · have : (c == k) = false := by simpa using hc
      simp [if_neg hc, List.lookup_cons, this]

/-- **C218 (counterexample).** A key that is a blank puts its text in front of every character and at the end, since keys are
stripped; two characters cannot be exchanged. -/
theorem c218_counterexample (new s : Str) :
    batchReplace s [([' '], new)] = s.flatMap (fun c => new ++ [c]) ++ new ∧
      batchReplace ['a', 'b'] [(['a'], ['b']), (['b'], ['a'])] = ['a', 'a'] ∧
      substitute [('a', ['b']), ('b', ['a'])] ['a', 'b'] = ['b', 'a'] := by
  refine ⟨?_, by decide +kernel, by decide +kernel⟩
  have : Symbolic.strip [' '] = [] := by decide +kernel
  simp [batchReplace, this, replace]

example : batchReplace "a-b_c".toList [(['-'], ['_']), (['.'], []), ([' ', 'c', ' '], ['d'])] = "a_b_d".toList := by
  decide +kernel

/-! ## C219: attributes by name -/

/-- **C219.** What is set can be read: for a plain attribute, `setattrval` succeeds, `getattrval` then gives the new value,
and all other attributes are as before. -/
theorem c219_set {V : Type} (o : Obj V) (name : Str) (w v : V) (args more : List V) (h : o.attrs.get? name = some (.value w)) :
    ∃ p, setattrval o name (v :: more) = .ok p ∧ getattrval p name args = .ok (p, .value v) ∧
      ∀ other, other ≠ name → p.attrs.get? other = o.attrs.get? other := by
  refine ⟨o.assign [(name, v)], ?_, ?_, ?_⟩
  · simp [setattrval, h]
  · simp [getattrval, Obj.assign]
  · intro other ho
    simp [Obj.assign, Dict.get?_set, ho.symm]

/-- **C219.** A method is called with the arguments, both to get and to set; an attribute that does not exist cannot be
set. -/
theorem c219_method {V : Type} (o : Obj V) (name : Str) (args : List V) :
    (∀ f, o.attrs.get? name = some (.method f) →
      (setattrval o name args = (f args).map (fun r => o.assign r.2)) ∧
      (getattrval o name args = (f args).map (fun r => (o.assign r.2, .value r.1)))) ∧
      (o.attrs.get? name = none → setattrval o name args = .error .attributeError) := by
  refine ⟨fun f h => ?_, fun h => by simp [setattrval, h]⟩
  constructor
  · simp only [setattrval, h, bind, Except.bind, pure, Except.pure]
    cases f args <;> rfl
  · simp only [getattrval, h, bind, Except.bind, pure, Except.pure]
    cases f args <;> rfl

/-- **C219 (partial).** An object without the attribute is returned itself, if it is not callable. -/
theorem c219_self_partial {V : Type} (o : Obj V) (name : Str) (args : List V) (h : o.attrs.get? name = none)
    (hc : o.call = none) : getattrval o name args = .ok (o, .self) := by
  simp [getattrval, h, hc]

/-- **C219 (counterexample).** A callable object without the attribute is called, and never returned itself. -/
theorem c219_counterexample {V : Type} (o : Obj V) (name : Str) (args : List V) (f : List V → Res V)
    (h : o.attrs.get? name = none) (hc : o.call = some f) :
    getattrval o name args = (f args).map (fun v => (o, .value v)) ∧ getattrval o name args ≠ .ok (o, .self) := by
  have : getattrval o name args = (f args).map (fun v => (o, .value v)) := by
    simp only [getattrval, h, hc, bind, Except.bind, pure, Except.pure]
    cases f args <;> rfl
  refine ⟨this, ?_⟩
  rw [this]
  cases f args with
  | error e => intro h; cases h
  | ok v =>
    intro h
    have h := congrArg (fun r => match r with | .ok (_, Got.self) => true | _ => false) h
    simp [Except.map] at h

theorem allEqual_iff {V : Type} [DecidableEq V] (name : Str) (v : V) : ∀ os : List (Dict Str V),
    equalAttrs.allEqual name v os = true ↔ ∀ o ∈ os, o.get? name = some v
  | [] => by simp [equalAttrs.allEqual]
  | o :: os => by
    unfold equalAttrs.allEqual
    cases h : o.get? name with
    | none => simp [h]
    | some w =>
      by_cases hw : w = v
      · subst hw; simp [h, allEqual_iff name w os]
      · simp [h, hw]

/-- **C219.** `equal_attrs` of at least one object is true if and only if there is a value that all of them have; the order
does not matter. -/
theorem c219_equal {V : Type} [DecidableEq V] (name : Str) (os : List (Dict Str V)) (hne : os ≠ []) :
    ∃ b, equalAttrs name os = .ok b ∧ (b = true ↔ ∃ v, ∀ o ∈ os, o.get? name = some v) := by
  cases os with
  | nil => exact absurd rfl hne
  | cons o os =>
    unfold equalAttrs
    cases h : o.get? name with
    | none => exact ⟨false, by simp only [h], by simp [h]⟩
    | some v =>
      refine ⟨equalAttrs.allEqual name v os, by simp only [h], ?_⟩
      rw [allEqual_iff]
      constructor
      · intro hv; exact ⟨v, by simpa [h] using hv⟩
      · rintro ⟨w, hw⟩
        have : w = v := by have := hw o (by simp); rw [h] at this; injection this with this; exact this.symm
        subst this
        exact fun o ho => hw o (by simp [ho])

theorem c219_order {V : Type} [DecidableEq V] (name : Str) (os ps : List (Dict Str V)) (h : os.Perm ps) :
    equalAttrs name os = equalAttrs name ps := by
  by_cases hne : os = []
  · subst hne; rw [List.nil_perm.1 h]
  · have hne' : ps ≠ [] := by rintro rfl; exact hne (List.perm_nil.1 h)
    obtain ⟨b, h1, h2⟩ := c219_equal name os hne
    obtain ⟨c, h3, h4⟩ := c219_equal name ps hne'
    rw [h1, h3]
    have : b = true ↔ c = true := by rw [h2, h4]; simp only [h.mem_iff]
    rw [Bool.eq_iff_iff.2 this]

/-- Three objects, two of which have the same unit. -/
example : equalAttrs ['u'] [[(['u'], 1)], [(['u'], 1), (['v'], 2)]] = .ok true
    ∧ equalAttrs ['u'] [[(['u'], 1)], [(['u'], 1)], [(['u'], 2)]] = .ok false
    ∧ equalAttrs ['u'] [[(['u'], 1)], [(['v'], 1)]] = .ok false
    ∧ equalAttrs (V := Nat) ['u'] [] = .error .valueError := by decide +kernel

/-! ## C220: singletons -/

/-- Single inheritance: the order of lookup is the class and then that of its base. -/
def Single {C : Type} (mro : C → List C) : Prop := ∀ c a t, a :: t <:+ mro c → mro a = a :: t

/-- Each class is first in its own order of lookup. -/
def SelfFirst {C : Type} (mro : C → List C) : Prop := ∀ c, ∃ t, mro c = c :: t

/-- What a class attribute lookup finds. -/
def found {C : Type} [DecidableEq C] (mro : C → List C) (st : Created C) (c : C) : Option (Nat × C) :=
  (mro c).findSome? (fun a => Dict.get? st.own a)

theorem findSome_suffix {C β : Type} (f g : C → Option β) {o : β} : ∀ {l : List C}, l.findSome? f = some o →
    (∀ a, f a = none → (∃ t, a :: t <:+ l ∧ t.findSome? f = some o) → g a = none) →
    (∀ a v, f a = some v → g a = some v) → l.findSome? g = some o
  | [], h, _, _ => by simp at h
  | a :: l, h, hg, hk => by
    rw [List.findSome?_cons] at h ⊢
    cases hf : f a with
    | some v => rw [hf] at h; rw [hk a v hf]; exact h
    | none =>
      rw [hf] at h
      rw [hg a hf ⟨l, List.suffix_refl _, h⟩]
      exact findSome_suffix f g h (fun b hb ⟨t, ht, ht'⟩ => hg b hb ⟨t, ht.trans (List.suffix_cons a l), ht'⟩) hk

theorem new_keeps {C : Type} [DecidableEq C] {mro : C → List C} (hf : SelfFirst mro) (hs : Single mro) {st : Created C}
    {c : C} {o : Nat × C} (h : found mro st c = some o) (d : C) : found mro (new mro st d).1 c = some o := by
  unfold new
  cases hd : (mro d).findSome? (fun a => Dict.get? st.own a) with
  | some p => exact h
  | none =>
    unfold found at h ⊢
    refine findSome_suffix _ _ h ?_ ?_
    · rintro a ha ⟨t, ht, hto⟩
      simp only [Dict.get?_set]
      split
      · next hda =>
        subst hda
        rw [hs c d t ht, List.findSome?_cons, ha, hto] at hd
        cases hd
      · exact ha
    · intro a v ha
      simp only [Dict.get?_set]
      split
      · next hda =>
        subst hda
        obtain ⟨t, ht⟩ := hf d
        have hn := List.findSome?_eq_none_iff.1 hd d (by rw [ht]; simp)
        rw [hn] at ha; cases ha
      · exact ha

theorem news_keeps {C : Type} [DecidableEq C] {mro : C → List C} (hf : SelfFirst mro) (hs : Single mro) :
    ∀ (calls : List C) {st : Created C} {c : C} {o : Nat × C}, found mro st c = some o →
      found mro (news mro st calls) c = some o
  | [], _, _, _, h => h
  | d :: calls, _, _, _, h => news_keeps hf hs calls (new_keeps hf hs h d)

theorem new_found {C : Type} [DecidableEq C] {mro : C → List C} (hf : SelfFirst mro) (st : Created C) (c : C) :
    found mro (new mro st c).1 c = some (new mro st c).2 := by
  unfold new found
  cases h : (mro c).findSome? (fun a => Dict.get? st.own a) with
  | some o => exact h
  | none =>
    obtain ⟨t, ht⟩ := hf c
    simp only [ht, List.findSome?_cons, Dict.get?_set, if_true]

theorem new_of_found {C : Type} [DecidableEq C] {mro : C → List C} {st : Created C} {c : C} {o : Nat × C}
    (h : found mro st c = some o) : (new mro st c).2 = o := by
  unfold found at h
  unfold new
  simp only [h]

theorem news_append {C : Type} [DecidableEq C] (mro : C → List C) (st : Created C) (h k : List C) :
    news mro st (h ++ k) = news mro (news mro st h) k := by simp [news, List.foldl_append]

/-- What holds of the instances at any time. -/
structure Sound {C : Type} [DecidableEq C] (calls : List C) (st : Created C) : Prop where
  cls : ∀ a o, Dict.get? st.own a = some o → o.2 = a ∧ a ∈ calls
  ids : ∀ a o, Dict.get? st.own a = some o → o.1 < st.count
  distinct : ∀ a b o p, Dict.get? st.own a = some o → Dict.get? st.own b = some p → o.1 = p.1 → a = b

theorem news_sound {C : Type} [DecidableEq C] (mro : C → List C) : ∀ calls : List C, Sound calls (news mro .none calls) := by
  intro calls
  induction calls using List.reverseRecOn with
  | nil => exact ⟨by simp [news, Created.none], by simp [news, Created.none], by simp [news, Created.none]⟩
  | append_singleton calls c ih =>
    rw [news_append]
    show Sound _ (new mro (news mro .none calls) c).1
    generalize news mro .none calls = st at ih ⊢
    unfold new
    cases h : (mro c).findSome? (fun a => Dict.get? st.own a) with
    | some o => exact ⟨fun a o ha => ⟨(ih.cls a o ha).1, by simp [(ih.cls a o ha).2]⟩, ih.ids, ih.distinct⟩
    | none =>
      refine ⟨?_, ?_, ?_⟩
      · intro a o ha
        simp only [Dict.get?_set] at ha
        split at ha
        · next he => injection ha with ha; subst ha; subst he; simp
        · exact ⟨(ih.cls a o ha).1, by simp [(ih.cls a o ha).2]⟩
      · intro a o ha
        simp only [Dict.get?_set] at ha
        split at ha
        · injection ha with ha; subst ha; exact Nat.lt_succ_self _
        · exact Nat.lt_succ_of_lt (ih.ids a o ha)
      · intro a b o p ha hb he
        simp only [Dict.get?_set] at ha hb
        split at ha <;> split at hb
        · next h1 h2 => rw [← h1, ← h2]
        · injection ha with ha; subst ha
          have := ih.ids b p hb
          simp only at he; omega
        · injection hb with hb; subst hb
          have := ih.ids a o ha
          simp only at he; omega
        · exact ih.distinct a b o p ha hb he

/-- **C220 (partial).** With single inheritance, every call of a class gives the object that its first call gave. -/
theorem c220_same_partial {C : Type} [DecidableEq C] (mro : C → List C) (hf : SelfFirst mro) (hs : Single mro)
    (h₁ h₂ : List C) (c : C) :
    (new mro (news mro .none (h₁ ++ c :: h₂)) c).2 = (new mro (news mro .none h₁) c).2 := by
  apply new_of_found
  rw [news_append]
  exact news_keeps hf hs h₂ (new_found hf _ c)

/-- **C220 (partial).** The object is one of the class, if no base of the class was called before. -/
theorem c220_class_partial {C : Type} [DecidableEq C] (mro : C → List C) (hist : List C) (c : C)
    (h : ∀ a ∈ hist, a ∈ mro c → a = c) : (new mro (news mro .none hist) c).2.2 = c := by
  have hS := news_sound mro hist
  unfold new
  cases hc : (mro c).findSome? (fun a => Dict.get? (news mro .none hist).own a) with
  | none => rfl
  | some o =>
    obtain ⟨a, ha, hao⟩ := List.exists_of_findSome?_eq_some hc
    obtain ⟨h1, h2⟩ := hS.cls a o hao
    rw [← h a h2 ha]
    exact h1

/-- **C220.** Classes without a common base among the singletons have different objects, at all times. -/
theorem c220_distinct {C : Type} [DecidableEq C] (mro : C → List C) (hf : SelfFirst mro) (hist : List C) (c d : C)
    (h : ∀ a ∈ mro c, a ∉ mro d) :
    (new mro (news mro .none hist) c).2.1 ≠ (new mro (news mro .none (hist ++ [c])) d).2.1 := by
  have hS := news_sound mro (hist ++ [c] ++ [d])
  have hc := new_found hf (news mro .none hist) c
  have hd := new_found hf (news mro .none (hist ++ [c])) d
  have e1 : (new mro (news mro .none hist) c).1 = news mro .none (hist ++ [c]) := by rw [news_append]; rfl
  have e2 : (new mro (news mro .none (hist ++ [c])) d).1 = news mro .none (hist ++ [c] ++ [d]) := by
    rw [news_append mro _ (hist ++ [c]) [d]]; rfl
  rw [e1] at hc
  obtain ⟨a, ha, hao⟩ := List.exists_of_findSome?_eq_some hc
  obtain ⟨b, hb, hbo⟩ := List.exists_of_findSome?_eq_some hd
  have hao' : Dict.get? (new mro (news mro .none (hist ++ [c])) d).1.own a = some (new mro (news mro .none hist) c).2 := by
    unfold new
    cases hx : (mro d).findSome? (fun a => Dict.get? (news mro .none (hist ++ [c])).own a) with
    | some o => exact hao
    | none =>
      have hne : d ≠ a := by
        rintro rfl
        obtain ⟨t, ht⟩ := hf d
        exact h d ha (by rw [ht]; simp)
      simp only [Dict.get?_set, if_neg hne]
      exact hao
  rw [e2] at hao' hbo
  intro he
  have := hS.distinct a b _ _ hao' hbo he
  subst this
  exact h a ha hb

/-- **C220 (counterexample).** Once a class has an instance, all classes derived from it share this instance, which is not
one of their own, for ever. -/
theorem c220_counterexample {C : Type} [DecidableEq C] (mro : C → List C) (hf : SelfFirst mro) (hs : Single mro)
    (hist : List C) (a c : C) (ha : a ∈ mro c) :
    (new mro (news mro .none (a :: hist)) c).2 = (0, a) := by
  apply new_of_found
  refine news_keeps hf hs hist ?_
  have : (new mro Created.none a).1.own = [(a, (0, a))] := by
    unfold new
    have : (mro a).findSome? (fun x => Dict.get? (Created.none : Created C).own x) = none := by
      rw [List.findSome?_eq_none_iff]; intro x _; rfl
    rw [this]; rfl
  unfold found
  rw [this]
  have key : ∀ l : List C, a ∈ l → l.findSome? (fun x => Dict.get? [(a, ((0 : Nat), a))] x) = some (0, a) := by
    intro l
    induction l with
    | nil => simp
    | cons x l ih =>
      intro hx
      rw [List.findSome?_cons]
      by_cases hxa : x = a
      · subst hxa; simp [Dict.get?]
      · rcases List.mem_cons.1 hx with h | h
        · exact absurd h.symm hxa
        · have : Dict.get? [(a, ((0 : Nat), a))] x = none := by
            rw [Dict.get?_eq_none_iff]; simp [Dict.keys, hxa]
          rw [this]; exact ih h
  exact key _ ha

/-- With two bases, the instance of a class can change: class 2 has the bases 0 and 1. -/
theorem c220_bases_counterexample :
    let mro : Nat → List Nat := fun c => if c = 2 then [2, 0, 1] else [c]
    (new mro (news mro .none [1]) 2).2 = (0, 1) ∧ (new mro (news mro .none [1, 2, 0]) 2).2 = (1, 0) := by
  decide +kernel

/-- A base 0 with the derived classes 1 and 2, the derived ones created first. -/
example : let mro : Nat → List Nat := fun c => if c = 0 then [0] else [c, 0]
    SelfFirst mro ∧ (new mro (news mro .none [1, 2, 0]) 1).2 = (0, 1)
      ∧ (new mro (news mro .none [1, 2, 0]) 2).2 = (1, 2) ∧ (new mro (news mro .none [1, 2]) 0).2 = (2, 0) := by
  refine ⟨?_, by decide +kernel, by decide +kernel, by decide +kernel⟩
  intro c
  by_cases h : c = 0
  · subst h; exact ⟨[], rfl⟩
  · exact ⟨[0], by simp [h]⟩

example : Single (fun c : Nat => if c = 0 then [0] else [c, 0]) := by
  intro c a t h
  by_cases hc : c = 0
  · subst hc
    simp only [if_true] at h
    rcases List.suffix_cons_iff.1 h with h | h
    · injection h with h1 h2; subst h1; subst h2; rfl
    · simp at h
  · simp only [if_neg hc] at h
    rcases List.suffix_cons_iff.1 h with h | h
    · injection h with h1 h2; subst h1; subst h2; simp [hc]
    · rcases List.suffix_cons_iff.1 h with h | h
      · injection h with h1 h2; subst h1; subst h2; rfl
      · simp at h

/-! ## C221: uniform mappings -/

/-- **C221 (partial).** If the interior mapping has a value for each parameter, and nothing else, the result is the instance
that its items give. -/
theorem c221_partial {V : Type} (null : V) (params : List (Param V)) (mapping : Dict Str (Dict Str V)) (key : Str)
    (m : Dict Str V) (hm : mapping.get? key = some m) (h1 : ∀ k ∈ m.keys, k ∈ params.map (·.name))
    (h2 : ∀ p ∈ params, (m.get? p.name).isSome) (hn : (params.map (·.name)).Nodup) :
    uniformGet null params mapping key = construct params m ∧
      construct params m = .ok (params.map (fun p => (p.name, (m.get? p.name).getD null))) := by
  have hk : ∀ ps : List (Param V), Dict.keys (ps.map (fun p => (p.name, (m.get? p.name).getD null))) = ps.map (·.name) := by
    intro ps; simp [Dict.keys, Function.comp_def]
  have e2 : construct params m = .ok (params.map (fun p => (p.name, (m.get? p.name).getD null))) := by
    unfold construct
    rw [if_pos (by simpa using h1)]
    apply mapM_ok
    intro p hp
    obtain ⟨v, hv⟩ := Option.isSome_iff_exists.1 (h2 p hp)
    simp [hv]
  refine ⟨?_, e2⟩
  rw [e2]
  unfold uniformGet
  simp only [hm]
  unfold construct
  rw [if_pos (by rw [hk, List.all_eq_true]; simp only [decide_eq_true_eq]; exact fun _ h => h)]
  apply mapM_ok
  intro p hp
  have : Dict.get? (params.map (fun p => (p.name, (m.get? p.name).getD null))) p.name = some ((m.get? p.name).getD null) := by
    rw [Dict.get?_eq_some_iff (by rw [hk]; exact hn)]
    exact List.mem_map.2 ⟨p, hp, rfl⟩
  simp [this]

/-- **C221 (counterexample).** Whatever the interior mapping is, an instance is created: parameters that it does not mention
are `None`, where the constructor has a default or requires a value, and other items are ignored. -/
theorem c221_counterexample {V : Type} (null : V) (params : List (Param V)) (mapping : Dict Str (Dict Str V)) (key : Str)
    (m : Dict Str V) (hm : mapping.get? key = some m) (hn : (params.map (·.name)).Nodup) :
    uniformGet null params mapping key = .ok (params.map (fun p => (p.name, (m.get? p.name).getD null))) := by
  have hk : Dict.keys (params.map (fun p => (p.name, (m.get? p.name).getD null))) = params.map (·.name) := by
    simp [Dict.keys, Function.comp_def]
  unfold uniformGet
  simp only [hm]
  unfold construct
  rw [if_pos (by rw [hk, List.all_eq_true]; simp only [decide_eq_true_eq]; exact fun _ h => h)]
  apply mapM_ok
  intro p hp
  have : Dict.get? (params.map (fun p => (p.name, (m.get? p.name).getD null))) p.name = some ((m.get? p.name).getD null) := by
    rw [Dict.get?_eq_some_iff (by rw [hk]; exact hn)]
    exact List.mem_map.2 ⟨p, hp, rfl⟩
  simp [this]

/-- A default that is lost, an item that is ignored, and a regular case. -/
example : let params : List (Param Nat) := [⟨['v'], none⟩, ⟨['n'], some 7⟩]
    uniformGet 0 params [(['a'], [(['v'], 1)])] ['a'] = .ok [(['v'], 1), (['n'], 0)]
    ∧ construct params [(['v'], 1)] = .ok [(['v'], 1), (['n'], 7)]
    ∧ uniformGet 0 params [(['a'], [(['v'], 1), (['n'], 2), (['x'], 3)])] ['a'] = .ok [(['v'], 1), (['n'], 2)]
    ∧ construct params [(['v'], 1), (['n'], 2), (['x'], 3)] = .error .typeError
    ∧ uniformGet 0 params [(['a'], [(['n'], 2), (['v'], 1)])] ['a'] = construct params [(['n'], 2), (['v'], 1)] := by
  decide +kernel

/-! ## C222: attributes of a class hierarchy -/

/-- **C222 (partial).** If all classes below one that has the attribute define it themselves, `class_attribute` gives the
values of each class once, those of the most basic class first. -/
theorem c222_partial {C V : Type} (own : C → Option (List V)) : ∀ (mro : List C),
    (∀ c t, c :: t <:+ mro → own c = none → t.findSome? own = none) →
    classAttribute own mro = (mro.reverse.filterMap own).flatten
  | [], _ => by simp [classAttribute]
  | c :: t, h => by
    have ih := c222_partial own t (fun d u hs => h d u (hs.trans (List.suffix_cons c t)))
    unfold classAttribute at ih ⊢
    simp only [List.tails_cons, List.reverse_cons, List.map_append, List.map_cons, List.map_nil, List.flatten_append,
      List.filterMap_append, List.flatten_cons, List.flatten_nil, List.append_nil]
    rw [ih]
    congr 1
    rw [List.findSome?_cons]
    cases ho : own c with
    | some v => simp [ho]
    | none => simp [ho, h c t (List.suffix_refl _) ho]

/-- **C222 (counterexample).** A class that inherits the attribute without defining it adds the inherited values once more. -/
theorem c222_counterexample {C V : Type} (own : C → Option (List V)) (c : C) (t : List C) (v : List V) (h : own c = none)
    (ht : t.findSome? own = some v) : classAttribute own (c :: t) = classAttribute own t ++ v := by
  unfold classAttribute
  simp only [List.tails_cons, List.reverse_cons, List.map_append, List.map_cons, List.map_nil, List.flatten_append,
    List.flatten_cons, List.flatten_nil, List.append_nil, List.findSome?_cons, h, ht, Option.getD_some]

/-- The classes 2, 1, 0 and `object` (9): 0 and 2 define values, then 1 as well. -/
example : let own : Nat → Option (List Nat) := fun c => if c = 0 then some [10, 11] else if c = 2 then some [20] else none
    classAttribute own [2, 1, 0, 9] = [10, 11, 10, 11, 20]
    ∧ classAttribute (fun c => if c = 1 then some [15] else own c) [2, 1, 0, 9] = [10, 11, 15, 20] := by decide +kernel

/-! ## C223: the first method with a result -/

/-- **C223.** `apply` gives the first true result and calls no method after it; `None` if there is no true result; and the
exception of a method that is called before. -/
theorem c223_apply {V : Type} (truth : V → Bool) (before after : List (Res V)) (hb : ∀ r ∈ before, ∃ v, r = .ok v ∧ truth v = false) :
    (∀ v, truth v = true → applyFirst truth (before ++ .ok v :: after) = (.ok (some v), before.length + 1)) ∧
      (∀ e, applyFirst truth (before ++ .error e :: after) = (.error e, before.length + 1)) ∧
      applyFirst truth before = (.ok none, before.length) := by
  induction before with
  | nil => exact ⟨fun v hv => by simp [applyFirst, hv], fun e => by simp [applyFirst], rfl⟩
  | cons r before ih =>
    obtain ⟨v, rfl, hv⟩ := hb r (by simp)
    obtain ⟨h1, h2, h3⟩ := ih (fun r hr => hb r (by simp [hr]))
    refine ⟨fun w hw => ?_, fun e => ?_, ?_⟩ <;>
      simp only [List.cons_append, applyFirst, hv, List.length_cons, Bool.false_eq_true, if_false]
    · rw [h1 w hw]
    · rw [h2 e]
    · rw [h3]

/-- **C223 (counterexample).** A result that is not null, but false, such as zero, is skipped. -/
theorem c223_counterexample {V : Type} (truth : V → Bool) (v : V) (hv : truth v = false) :
    applyFirst truth [.ok v] = (.ok none, 1) := by simp [applyFirst, hv]

example : applyFirst (fun n : Nat => n ≠ 0) [.ok 0, .ok 3, .error .valueError] = (.ok (some 3), 2) := by decide +kernel

end Verif.Helpers
