import Verif.Forms.GridLemmas

/-!
# Functions of time on arrays of any shape (C73)
-/
namespace Verif.Grid

open Verif.Stellar (Sky Obs pmod rint stellarSecond siderealSecond)
open Verif.Forms (PyErr)
open Verif.Deco (Arr Arg bshape sub indices Broadcast Goes Inside axis bshape_some inside_axis goes_unique axis_sub inside_sub mem_indices)

theorem bop_eq (f : ℚ → ℚ → ℚ) (a b : Arr ℚ) (t : List Nat) (h : bshape [a.shape, b.shape] = some t) :
    bop f a b = .ok ⟨t, fun i => f (a.get (sub a.shape i)) (b.get (sub b.shape i))⟩ := by
  unfold bop
  rw [h]

theorem bop_ok (f : ℚ → ℚ → ℚ) (a b : Arr ℚ) (t : List Nat) (h : bshape [a.shape, b.shape] = some t) :
    ∃ r, bop f a b = .ok r ∧ r.shape = t ∧ ∀ i, r.get i = f (a.get (sub a.shape i)) (b.get (sub b.shape i)) :=
  ⟨_, bop_eq f a b t h, rfl, fun _ => rfl⟩

/-- The second has the shape of the result already. -/
theorem bop_right (f : ℚ → ℚ → ℚ) (a b : Arr ℚ) (t : List Nat) (h : bshape [a.shape, t] = some t) (hb : b.shape = t) :
    ∃ r, bop f a b = .ok r ∧ r.shape = t ∧ ∀ i, Inside i t → r.get i = f (a.get (sub a.shape i)) (b.get i) := by
  obtain ⟨r, h1, h2, h3⟩ := bop_ok f a b t (by rw [hb]; exact h)
  exact ⟨r, h1, h2, fun i hi => by rw [h3, hb, sub_self t i hi]⟩

/-- Both have the same shape. -/
theorem bop_same (f : ℚ → ℚ → ℚ) (a b : Arr ℚ) (t : List Nat) (ha : a.shape = t) (hb : b.shape = t) :
    ∃ r, bop f a b = .ok r ∧ r.shape = t ∧ ∀ i, Inside i t → r.get i = f (a.get i) (b.get i) := by
  obtain ⟨r, h1, h2, h3⟩ := bop_right f a b t (by rw [ha]; exact bshape_self t) hb
  exact ⟨r, h1, h2, fun i hi => by rw [h3 i hi, ha, sub_self t i hi]⟩

theorem bop_none (f : ℚ → ℚ → ℚ) (a b : Arr ℚ) (h : bshape [a.shape, b.shape] = none) : bop f a b = .error .valueError := by
  unfold bop
  rw [h]

/-- Leap seconds as a number. -/
abbrev leaps (k : Sky) (x y : ℚ) : Except Stellar.PyErr ℚ := (Stellar.leapSecondsBetween k x y).map fun n => ((n : ℤ) : ℚ)

theorem leapEnd_res (s : Arr ℚ) (v : List Nat → Except Stellar.PyErr ℚ)
    (hv : ∀ i, Inside i s.shape → v i = if crazy (s.get i) = true then .error .runtimeError else .ok ((rint (s.get i) : ℤ) : ℚ)) :
    Res (leapEnd s) s.shape v := by
  unfold leapEnd
  by_cases hany : (indices s.shape).any (fun i => crazy (s.get i)) = true
  · rw [if_pos hany]
    rw [List.any_eq_true] at hany
    obtain ⟨i, hi, hd⟩ := hany
    rw [mem_indices] at hi
    exact .inr ⟨rfl, i, hi, by rw [hv i hi, if_pos hd]⟩
  · rw [if_neg hany]
    refine .inl ⟨_, rfl, rfl, fun i hi => ?_⟩
    rw [hv i hi, if_neg fun hc => hany (List.any_eq_true.2 ⟨i, (mem_indices _ i).2 hi, hc⟩)]
    rfl

theorem leaps_eq (k : Sky) (x y : ℚ) : leaps k x y =
    if crazy (k.tt y - k.tt x - (y - x)) = true then .error .runtimeError else .ok ((rint (k.tt y - k.tt x - (y - x)) : ℤ) : ℚ) := by
  unfold leaps Stellar.leapSecondsBetween crazy
  simp only [decide_eq_true_eq]
  split <;> rfl

theorem leapBody_res (k : Sky) (a b : Arr ℚ) (t : List Nat) (ha : Full a.shape) (hb : Full b.shape) (h : bshape [a.shape, b.shape] = some t) :
    Res (leapBody k a b) t fun i => leaps k (a.get (sub a.shape i)) (b.get (sub b.shape i)) := by
  have h' : bshape [b.shape, a.shape] = some t := by rw [bshape_swap, h]
  obtain ⟨u, hu1, hu2, hu3⟩ := bop_ok (· - ·) b a t h'
  obtain ⟨v, hv1, hv2, hv3⟩ := bop_ok (· - ·) (amap k.tt b) (amap k.tt a) t h'
  obtain ⟨w, hw1, hw2, hw3⟩ := bop_same (· - ·) v u t hv2 hu2
  unfold leapBody
  rw [hu1]
  simp only [timeAttr_full _ _ ha, timeAttr_full _ _ hb, hv1, hw1]
  subst hw2
  refine leapEnd_res _ _ fun i hi => ?_
  rw [leaps_eq, hw3 i hi, hv3, hu3]
  rfl

theorem leapBody_none (k : Sky) (a b : Arr ℚ) (h : bshape [a.shape, b.shape] = none) : leapBody k a b = .error .valueError := by
  unfold leapBody
  rw [bop_none _ _ _ (by rw [bshape_swap, h])]

theorem unixToEra_full (k : Sky) (a : Arg ℚ) (h1 : ¬ a.isOne) (h : Full a.array.shape) :
    unixToEra k a = .ok (.arr (amap (Stellar.unixToEra k) a.array)) := by
  unfold unixToEra
  rw [scalarize_arr _ a h1 h]
  simp only
  rw [timeAttr_full _ _ h]
  rfl

theorem eraBody_res (k : Sky) (e t0 : Arr ℚ) (t : List Nat) (he : Full e.shape) (ht : Full t0.shape) (h : bshape [e.shape, t0.shape] = some t) :
    Res (eraBody k e t0) t fun i => Stellar.eraToUnix k (e.get (sub e.shape i)) (t0.get (sub t0.shape i)) := by
  have hfull : Full t := full_broadcast _ _ _ h he ht
  have habs : bshape [t0.shape, t] = some t := bshape_absorb _ _ _ h (by simp)
  obtain ⟨d, hd1, hd2, hd3⟩ := bop_ok (fun x y => pmod (x - y) 360 * 240 * stellarSecond) e (amap (Stellar.unixToEra k) t0) t h
  obtain ⟨u, hu1, hu2, hu3⟩ := bop_right (· + ·) t0 d t habs hd2
  have hguess : ∀ i, Inside i t → u.get i = t0.get (sub t0.shape i) +
      pmod (e.get (sub e.shape i) - Stellar.unixToEra k (t0.get (sub t0.shape i))) 360 * 240 * stellarSecond := by
    intro i hi
    rw [hu3 i hi, hd3]
    rfl
  have hleap : leapSecondsBetween k (.arr t0) (.arr u) = wrap (leapBody k t0 u) := by
    unfold leapSecondsBetween
    have h1 : Usual (.arr t0) := Or.inr ht
    have h2 : Usual (.arr u) := Or.inr (by rw [Arg.array, hu2]; exact hfull)
    rw [scalarize_pair _ _ _ h1 h2 (fun h => by cases h.1)]
    rfl
  have hres := leapBody_res k t0 u t ht (by rw [hu2]; exact hfull) (by rw [hu2]; exact habs)
  unfold eraBody
  rw [unixToEra_full k (.arr t0) (fun h => by cases h) ht]
  simp only [V.array, Arg.array]
  rw [hd1]
  simp only
  rw [hu1]
  simp only
  rw [hleap]
  rcases hres with ⟨o, hr, ho, hv⟩ | ⟨hr, i, hi, hv⟩
  · left
    obtain ⟨w, hw1, hw2, hw3⟩ := bop_same (· - ·) u o t hu2 ho
    rw [hr]
    simp only [wrap]
    refine ⟨w, hw1, hw2, fun i hi => ?_⟩
    have hvi := hv i hi
    simp only [hu2] at hvi
    rw [sub_self t i hi, hguess i hi] at hvi
    rw [hw3 i hi, hguess i hi]
    unfold leaps at hvi
    unfold Stellar.eraToUnix
    simp only
    cases hl : Stellar.leapSecondsBetween k (t0.get (sub t0.shape i))
      (t0.get (sub t0.shape i) + pmod (e.get (sub e.shape i) - Stellar.unixToEra k (t0.get (sub t0.shape i))) 360 * 240 * stellarSecond) with
    | error e =>
      rw [hl] at hvi
      cases hvi
    | ok n =>
      rw [hl] at hvi
      have : (n : ℚ) = o.get i := by
        injection hvi
      simp only
      rw [this]
  · right
    rw [hr]
    refine ⟨rfl, i, hi, ?_⟩
    simp only [hu2] at hv
    rw [sub_self t i hi, hguess i hi] at hv
    unfold leaps at hv
    unfold Stellar.eraToUnix
    simp only
    cases hl : Stellar.leapSecondsBetween k (t0.get (sub t0.shape i))
      (t0.get (sub t0.shape i) + pmod (e.get (sub e.shape i) - Stellar.unixToEra k (t0.get (sub t0.shape i))) 360 * 240 * stellarSecond) with
    | error e =>
      cases e
      rfl
    | ok n =>
      rw [hl] at hv
      cases hv

theorem eraBody_none (k : Sky) (e t0 : Arr ℚ) (ht : Full t0.shape) (h : bshape [e.shape, t0.shape] = none) :
    eraBody k e t0 = .error .valueError := by
  unfold eraBody
  rw [unixToEra_full k (.arr t0) (fun h => by cases h) ht]
  simp only [V.array, Arg.array]
  rw [bop_none _ e (amap (Stellar.unixToEra k) t0) h]

theorem boxed_get (a : Arg ℚ) (i : List Nat) : (Deco.boxed a).get (sub (Deco.boxed a).shape i) = a.array.get (sub a.array.shape i) := by
  cases a <;> rfl

theorem at2_iff (f : ℚ → ℚ → Except Stellar.PyErr ℚ) (a b : Arg ℚ) (t i : List Nat) (r : Except Stellar.PyErr ℚ)
    (hb : Broadcast [a.array.shape, b.array.shape] t) (hi : Inside i t) :
    At2 f a b i r ↔ f (a.array.get (sub a.array.shape i)) (b.array.get (sub b.array.shape i)) = r := by
  have hil := (inside_axis i t).1 hi
  have ga := axis_sub a.array.shape i (by rw [hil.1]; exact hb.1 _ (by simp))
  have gb := axis_sub b.array.shape i (by rw [hil.1]; exact hb.1 _ (by simp))
  constructor
  · rintro ⟨ja, jb, ⟨h1, -⟩, ⟨h2, -⟩, h⟩
    rw [goes_unique _ _ _ _ h1 ga, goes_unique _ _ _ _ h2 gb] at h
    exact h
  · intro h
    exact ⟨_, _, ⟨ga, inside_sub _ t _ i hb (by simp) hi⟩, ⟨gb, inside_sub _ t _ i hb (by simp) hi⟩, h⟩

/-- What holds for the arrays in the body holds for all kinds of arguments. -/
theorem onArrays2_of (body : List (Arr ℚ) → Except PyErr (Arr ℚ)) (f : ℚ → ℚ → Except Stellar.PyErr ℚ)
    (hres : ∀ a b t, Full a.shape → Full b.shape → bshape [a.shape, b.shape] = some t →
      Res (body [a, b]) t fun i => f (a.get (sub a.shape i)) (b.get (sub b.shape i)))
    (hnone : ∀ a b, Full a.shape → Full b.shape → bshape [a.shape, b.shape] = none → body [a, b] = .error .valueError) :
    OnArrays2 (fun a b => scalarize body [a, b]) f := by
  refine ⟨fun x y => ?_, fun a b ha hb hne => ?_⟩
  · have hf : Full [1] := ⟨by simp, by simp⟩
    have h := hres ⟨[1], fun _ => x⟩ ⟨[1], fun _ => y⟩ [1] hf hf (bshape_self [1])
    have hs : scalarize body [.one x, .one y] = match body [⟨[1], fun _ => x⟩, ⟨[1], fun _ => y⟩] with
        | .error e => .error e
        | .ok r => firstOf r := rfl
    simp only
    rw [hs]
    rcases h with ⟨o, hr, ho, hv⟩ | ⟨hr, i, hi, hv⟩
    · rw [hr]
      have := hv [0] (.cons (by omega) .nil)
      simp only at this
      rw [this]
      simp only [firstOf, ho, number]
      rfl
    · rw [hr]
      simp only at hv
      rw [hv]
      rfl
  · have hex : ∃ c ∈ [a, b], ¬ c.isOne ∧ c.array.shape ≠ [] := by
      by_cases h1 : a.isOne
      · have h2 : ¬ b.isOne := fun h2 => hne ⟨h1, h2⟩
        exact ⟨b, by simp, h2, (hb.resolve_left h2).1⟩
      · exact ⟨a, by simp, h1, (ha.resolve_left h1).1⟩
    have hbox : ∀ t, Broadcast [(Deco.boxed a).shape, (Deco.boxed b).shape] t ↔ Broadcast [a.array.shape, b.array.shape] t := fun t =>
      Deco.broadcast_boxed [a, b] t hex
    have fa := boxed_full a ha
    have fb := boxed_full b hb
    constructor
    · intro t ht
      have hsh := (bshape_some _ _).2 ((hbox t).2 ht)
      refine fills _ t _ _ _ (scalarize_pair body a b ha hb hne) (hres _ _ t fa fb hsh) fun i hi y => ?_
      rw [at2_iff f a b t i y ht hi, boxed_get, boxed_get]
    · intro hno
      have hsh : bshape [(Deco.boxed a).shape, (Deco.boxed b).shape] = none := by
        cases h : bshape [(Deco.boxed a).shape, (Deco.boxed b).shape] with
        | none => rfl
        | some t => exact absurd ⟨t, (hbox t).1 ((bshape_some _ _).1 h)⟩ hno
      simp only
      rw [scalarize_pair body a b ha hb hne, hnone _ _ fa fb hsh]
      rfl

/-- **C73** (leap seconds, any shape): an array without axes of length zero, of any shape, gives an array of that shape, and two
arrays are broadcast. What the 1-dimensional theorems do not say about empty arrays, these do not say about axes of length zero. -/
theorem C73_leap_arrays_partial (k : Sky) : OnArrays2 (leapSecondsBetween k) (leaps k) :=
  onArrays2_of _ _ (fun a b t ha hb h => leapBody_res k a b t ha hb h) (fun a b _ _ h => leapBody_none k a b h)

/-- **C73** (time of an angle of the Earth, any shape). -/
theorem C73_era_to_unix_arrays_partial (k : Sky) : OnArrays2 (eraToUnix k) (Stellar.eraToUnix k) :=
  onArrays2_of _ _ (fun a b t ha hb h => eraBody_res k a b t ha hb h) (fun a b _ hb h => eraBody_none k a b hb h)

/-- Times without leap seconds, and an Earth that turns once a day. -/
def plainSky : Sky := ⟨fun t => t, fun t => t / 86400⟩

/-- Six angles and two times that fit together. -/
def angles : Arg ℚ := .arr ⟨[3, 2], fun i => match i with
  | [a, b] => 100 * a + b
  | _ => 0⟩

def starts : Arg ℚ := .seq ⟨[2], fun i => match i with
  | [b] => 1000 * b
  | _ => 0⟩

example : Usual angles ∧ Usual starts ∧ Broadcast [angles.array.shape, starts.array.shape] [3, 2] :=
  ⟨.inr (by decide), .inr (by decide), (bshape_some _ _).1 (by decide)⟩

/-- All of them can be computed. -/
example : ∃ o, eraToUnix plainSky angles starts = .ok (.arr o) := by
  refine (((C73_era_to_unix_arrays_partial plainSky).2 angles starts (.inr (by decide)) (.inr (by decide)) (fun h => by cases h.1)).1 [3, 2]
    ((bshape_some _ _).1 (by decide))).2.1.2 fun i hi => ?_
  have h0 : ∀ x y, ∃ z, Stellar.eraToUnix plainSky x y = .ok z := by
    intro x y
    unfold Stellar.eraToUnix Stellar.leapSecondsBetween plainSky
    have h1 : ∀ u v : ℚ, u - v - (u - v) = 0 := by intros; ring
    simp only [h1]
    rw [if_neg (by norm_num [Stellar.rint])]
    exact ⟨_, rfl⟩
  obtain ⟨z, hz⟩ := h0 (angles.array.get (sub angles.array.shape i)) (starts.array.get (sub starts.array.shape i))
  exact ⟨z, (at2_iff _ _ _ [3, 2] i _ ((bshape_some _ _).1 (by decide)) hi).2 hz⟩

/-- Shapes that do not fit. -/
example : leapSecondsBetween plainSky angles (.arr ⟨[3], fun _ => 0⟩) = .error .valueError :=
  ((C73_leap_arrays_partial plainSky).2 angles (.arr ⟨[3], fun _ => 0⟩) (.inr (by decide)) (.inr (by decide)) (fun h => by cases h.1)).2
    (by rintro ⟨t, ht⟩; rw [← bshape_some] at ht; exact absurd ht (by rw [show bshape _ = none from by decide]; simp))

theorem fills_ok (f : ℚ → ℚ) (a : Arg ℚ) (R : Except PyErr V) (hR : R = .ok (.arr (amap f a.array))) :
    Fills (At1 (fun t => .ok (f t)) a) a.array.shape R :=
  fills _ _ (fun i => .ok (f (a.array.get i))) (.ok (amap f a.array)) R hR (.inl ⟨_, rfl, rfl, fun _ _ => rfl⟩) fun _ _ _ => Iff.rfl

/-- **C73** (angle of the Earth, any shape). -/
theorem C73_era_arrays_partial (k : Sky) : OnArrays (unixToEra k) (fun t => .ok (Stellar.unixToEra k t)) :=
  ⟨fun _ => rfl, fun a h1 h2 h3 => fills_ok _ a _ (unixToEra_full k a h1 ⟨h2, h3⟩)⟩

theorem listize_array (a : Arg ℚ) : (listize a).array = a.array ∧ ((listize a).isOne ↔ a.isOne) := by
  cases a <;> exact ⟨rfl, Iff.rfl⟩

theorem unixToLsa_full (k : Sky) (o : Obs) (a : Arg ℚ) (h1 : ¬ a.isOne) (h : Full a.array.shape) :
    unixToLsa k o a = .ok (.arr (amap (Stellar.unixToLsa k o) a.array)) := by
  unfold unixToLsa
  rw [unixToEra_full k (listize a) (by rw [(listize_array a).2]; exact h1) (by rw [(listize_array a).1]; exact h), (listize_array a).1]
  rfl

/-- **C73** (stellar angle, any shape). -/
theorem C73_lsa_arrays_partial (k : Sky) (o : Obs) : OnArrays (unixToLsa k o) (fun t => .ok (Stellar.unixToLsa k o t)) :=
  ⟨fun _ => rfl, fun a h1 h2 h3 => fills_ok _ a _ (unixToLsa_full k o a h1 ⟨h2, h3⟩)⟩

theorem value_arr (a : Arg ℚ) (h1 : ¬ a.isOne) (h : a.array.shape ≠ []) : value a = .arr a.array := by
  cases a with
  | one x => exact absurd trivial h1
  | seq x => simp only [value]; exact if_neg h
  | arr x => simp only [value]; exact if_neg h

/-- Arithmetic with numbers before a function of two arguments. -/
theorem onArrays2_map (F : Arg ℚ → Arg ℚ → Except PyErr V) (f : ℚ → ℚ → Except Stellar.PyErr ℚ) (g : ℚ → ℚ) (h : OnArrays2 F f) :
    OnArrays2 (fun a b => F ((value (listize a)).map g).arg (listize b)) (fun x y => f (g x) y) := by
  refine ⟨fun x y => h.1 (g x) y, fun a b ha hb hne => ?_⟩
  have key : ∃ a', ((value (listize a)).map g).arg = a' ∧ Usual a' ∧ a'.array.shape = a.array.shape ∧ (a'.isOne ↔ a.isOne) ∧
      ∀ i, a'.array.get i = g (a.array.get i) := by
    by_cases h1 : a.isOne
    · cases a with
      | one x => exact ⟨_, rfl, .inl trivial, rfl, Iff.rfl, fun _ => rfl⟩
      | seq x => cases h1
      | arr x => cases h1
    · have hs := ha.resolve_left h1
      have hl := listize_array a
      rw [value_arr (listize a) (by rw [hl.2]; exact h1) (by rw [hl.1]; exact hs.1), hl.1]
      exact ⟨_, rfl, .inr hs, rfl, ⟨fun h => (by cases h), fun h => absurd h h1⟩, fun _ => rfl⟩
  obtain ⟨a', he, hu, hsh, hone, hget⟩ := key
  have hl := listize_array b
  have hub : Usual (listize b) := by
    unfold Usual
    rw [hl.1, hl.2]
    exact hb
  have hgo := h.2 a' (listize b) hu hub (by rw [hone, hl.2]; exact hne)
  simp only
  rw [he]
  rw [hsh, hl.1] at hgo
  refine ⟨fun t ht => ?_, hgo.2⟩
  have hat : ∀ i r, At2 f a' (listize b) i r ↔ At2 (fun x y => f (g x) y) a b i r := by
    intro i r
    unfold At2
    rw [hl.1, hsh]
    simp only [hget]
  have hfun : At2 f a' (listize b) = At2 (fun x y => f (g x) y) a b := by
    funext i r
    exact propext (hat i r)
  rw [← hfun]
  exact hgo.1 t ht

/-- **C73** (time of a stellar angle, any shape). -/
theorem C73_lsa_to_unix_arrays_partial (k : Sky) (o : Obs) : OnArrays2 (lsaToUnix k o) (Stellar.lsaToUnix k o) :=
  onArrays2_map _ _ _ (C73_era_to_unix_arrays_partial k)

theorem lsdZero_eq (k : Sky) (o : Obs) : lsdZero k o = number (Stellar.lsdZero k o) := (C73_lsa_to_unix_arrays_partial k o).1 0 o.lsdStartDay

/-- **C73** (stellar day, any shape). -/
theorem C73_lsd_arrays_partial (k : Sky) (o : Obs) : OnArrays (unixToLsd k o) (Stellar.unixToLsd k o) := by
  constructor
  · intro x
    unfold unixToLsd
    have : unixToLsa k o (listize (.one x)) = .ok (.one (Stellar.unixToLsa k o x)) := rfl
    rw [this, lsdZero_eq]
    unfold Stellar.unixToLsd
    cases Stellar.lsdZero k o with
    | error e => cases e; rfl
    | ok z => rfl
  · intro a h1 h2 h3
    have hl := listize_array a
    have h1' : ¬ (listize a).isOne := by rw [hl.2]; exact h1
    have hlsa : unixToLsa k o (listize a) = .ok (.arr (amap (Stellar.unixToLsa k o) a.array)) := by
      rw [unixToLsa_full k o _ h1' (by rw [hl.1]; exact ⟨h2, h3⟩), hl.1]
    have hval : value (listize a) = .arr a.array := by
      rw [value_arr _ h1' (by rw [hl.1]; exact h2), hl.1]
    cases hz : Stellar.lsdZero k o with
    | error e =>
      cases e
      obtain ⟨i, hi⟩ := inside_exists _ h3
      refine fills _ _ (fun i => Stellar.unixToLsd k o (a.array.get i)) (.error .runtimeError) _ ?_ (.inr ⟨rfl, i, hi, ?_⟩) fun _ _ _ => Iff.rfl
      · unfold unixToLsd
        rw [hlsa, lsdZero_eq, hz]
        rfl
      · unfold Stellar.unixToLsd
        rw [hz]
    | ok z =>
      have hu : ∃ r : Arr ℚ, unixToLsd k o a = .ok (.arr r) ∧ r.shape = a.array.shape ∧ ∀ i, Inside i a.array.shape →
          Stellar.unixToLsd k o (a.array.get i) = .ok (r.get i) := by
        obtain ⟨u, hu1, hu2, hu3⟩ := bop_same (fun x y => ((rint (x - y) : ℤ) : ℚ))
          (amap (fun x => (x - z) / (24 * 3600 * siderealSecond)) a.array)
          (amap (fun x => x / 360) (amap (Stellar.unixToLsa k o) a.array)) a.array.shape rfl rfl
        obtain ⟨v, hv1, hv2, hv3⟩ := bop_same (· + ·) u (amap (fun x => x / 360) (amap (Stellar.unixToLsa k o) a.array)) a.array.shape hu2 rfl
        unfold unixToLsd
        rw [hlsa, lsdZero_eq, hz, hval]
        simp only [number, V.op, V.map, hu1, hv1]
        refine ⟨v, rfl, hv2, fun i hi => ?_⟩
        rw [hv3 i hi, hu3 i hi]
        unfold Stellar.unixToLsd
        rw [hz]
        rfl
      obtain ⟨r, hr, hs, hv⟩ := hu
      exact fills _ _ (fun i => Stellar.unixToLsd k o (a.array.get i)) (.ok r) _ hr (.inl ⟨r, rfl, hs, hv⟩) fun _ _ _ => Iff.rfl

/-- **C73** (time of a stellar day, any shape). -/
theorem C73_lsd_to_unix_arrays_partial (k : Sky) (o : Obs) : OnArrays (lsdToUnix k o) (Stellar.lsdToUnix k o) := by
  constructor
  · intro x
    unfold lsdToUnix Stellar.lsdToUnix
    rw [lsdZero_eq]
    cases Stellar.lsdZero k o with
    | error e => cases e; rfl
    | ok z => exact (C73_lsa_to_unix_arrays_partial k o).1 _ _
  · intro a h1 h2 h3
    have hl := listize_array a
    have h1' : ¬ (listize a).isOne := by rw [hl.2]; exact h1
    have hval : value (listize a) = .arr a.array := by
      rw [value_arr _ h1' (by rw [hl.1]; exact h2), hl.1]
    unfold lsdToUnix
    rw [lsdZero_eq, hval]
    cases hz : Stellar.lsdZero k o with
    | error e =>
      cases e
      obtain ⟨i, hi⟩ := inside_exists _ h3
      refine fills _ _ (fun i => Stellar.lsdToUnix k o (a.array.get i)) (.error .runtimeError) _ rfl (.inr ⟨rfl, i, hi, ?_⟩) fun _ _ _ => Iff.rfl
      unfold Stellar.lsdToUnix
      rw [hz]
    | ok z =>
      simp only [number, V.op, V.map, V.arg]
      have hgo := ((C73_lsa_to_unix_arrays_partial k o).2 (.arr (amap (fun l => 360 * pmod l 1) a.array))
        (.arr (amap (fun l => z + l * 3600 * 24 * siderealSecond - 12 * 3600) a.array)) (.inr ⟨h2, h3⟩) (.inr ⟨h2, h3⟩)
        (fun h => by cases h.1)).1 a.array.shape ((bshape_some _ _).1 (bshape_self _))
      have hat : ∀ i, Inside i a.array.shape → ∀ r, At2 (Stellar.lsaToUnix k o) (.arr (amap (fun l => 360 * pmod l 1) a.array))
          (.arr (amap (fun l => z + l * 3600 * 24 * siderealSecond - 12 * 3600) a.array)) i r ↔ At1 (Stellar.lsdToUnix k o) a i r := by
        intro i hi r
        refine (at2_iff _ (.arr (amap (fun l => 360 * pmod l 1) a.array))
          (.arr (amap (fun l => z + l * 3600 * 24 * siderealSecond - 12 * 3600) a.array)) a.array.shape i r
          ((bshape_some _ _).1 (bshape_self _)) hi).trans ?_
        have hg : ∀ f : ℚ → ℚ, (Arg.arr (amap f a.array)).array.get (sub (Arg.arr (amap f a.array)).array.shape i) = f (a.array.get i) := by
          intro f
          exact congrArg (fun j => f (a.array.get j)) (sub_self _ i hi)
        rw [hg, hg]
        unfold At1 Stellar.lsdToUnix
        rw [hz]
      refine ⟨fun r hr => ⟨(hgo.1 r hr).1, fun i hi => (hat i hi _).1 ((hgo.1 r hr).2 i hi)⟩, hgo.2.1.trans ?_, hgo.2.2⟩
      exact ⟨fun h i hi => (h i hi).imp fun y hy => (hat i hi _).1 hy, fun h i hi => (h i hi).imp fun y hy => (hat i hi _).2 hy⟩

/-- **C73** (sidereal time, any shape). -/
theorem C73_sidereal_arrays_partial (gast : ℚ → ℚ) (o : Obs) :
    OnArrays (unixToLst gast o) (fun t => .ok (pmod (gast t * 15 + o.longitude) 360)) := by
  refine ⟨fun _ => rfl, fun a h1 h2 h3 => fills_ok _ a _ ?_⟩
  have hl := listize_array a
  have hu : Usual (listize a) := .inr (by rw [hl.1]; exact ⟨h2, h3⟩)
  have hone : Deco.isOneB (listize a) = false := by
    cases h : Deco.isOneB (listize a) with
    | false => rfl
    | true => exact absurd (hl.2.1 ((isOneB_iff _).1 h)) h1
  have hbox : Deco.boxed (listize a) = a.array := by
    cases a with
    | one x => exact absurd trivial h1
    | seq x => rfl
    | arr x => rfl
  unfold unixToLst
  rw [makeArray_usual _ hu, hone, hbox]
  simp only
  rw [timeAttr_full _ _ ⟨h2, h3⟩]
  rfl

/-- C73 fails for arrays of which the first axis has length zero and that have others: the result has one axis. -/
theorem C73_empty_shape_violated (k : Sky) (x : List Nat → ℚ) : ∃ o, unixToEra k (.arr ⟨[0, 3], x⟩) = .ok (.arr o) ∧ o.shape = [0] :=
  ⟨_, rfl, rfl⟩

end Verif.Grid
