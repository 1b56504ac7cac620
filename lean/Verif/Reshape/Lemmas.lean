import Verif.Reshape.Spec
import Mathlib.Data.List.Forall2
import Mathlib.Tactic.Ring
import Mathlib.Tactic.Linarith

/-! Lemmas about positions in row-major order. -/
namespace Verif.Reshape

theorem prod_cons (k : Nat) (s : List Nat) : prod (k :: s) = k * prod s := rfl

theorem prod_append (s t : List Nat) : prod (s ++ t) = prod s * prod t := by
  induction s with
  | nil => simp [prod]
  | cons k s ih => rw [List.cons_append, prod_cons, prod_cons, ih, Nat.mul_assoc]

theorem prod_reverse (s : List Nat) : prod s.reverse = prod s := by
  induction s with
  | nil => rfl
  | cons k s ih =>
    rw [List.reverse_cons, prod_append, ih, prod_cons, prod_cons, Nat.mul_comm]
    simp [prod]

theorem InShape.length {i s : List Nat} (h : InShape i s) : i.length = s.length := List.Forall₂.length_eq h

theorem ravel_lt {i s : List Nat} (h : InShape i s) : ravel s i < prod s := by
  induction h with
  | nil => simp [prod, ravel]
  | cons h1 _ ih =>
    rename_i a b l1 l2 _
    rw [ravel, prod_cons]
    calc a * prod l2 + ravel l2 l1 < a * prod l2 + prod l2 := by omega
      _ = (a + 1) * prod l2 := by rw [Nat.succ_mul]
      _ ≤ b * prod l2 := Nat.mul_le_mul_right _ h1

theorem unravel_ravel {i s : List Nat} (h : InShape i s) : unravel s (ravel s i) = i := by
  induction h with
  | nil => rfl
  | cons h1 h2 ih =>
    rename_i a b l1 l2
    have hlt := ravel_lt h2
    have hpos : 0 < prod l2 := by omega
    rw [ravel, unravel, Nat.mul_comm, Nat.mul_add_div hpos, Nat.mul_add_mod, Nat.mod_eq_of_lt hlt, ih,
      Nat.div_eq_of_lt hlt, Nat.add_zero]

theorem unravel_in (s : List Nat) (x : Nat) (h : x < prod s) : InShape (unravel s x) s := by
  induction s generalizing x with
  | nil => exact List.Forall₂.nil
  | cons k s ih =>
    rw [prod_cons] at h
    have hpos : 0 < prod s := Nat.pos_of_ne_zero (by rintro h0; rw [h0] at h; simp at h)
    refine List.Forall₂.cons ((Nat.div_lt_iff_lt_mul hpos).2 h) (ih _ (Nat.mod_lt _ hpos))

theorem ravel_unravel (s : List Nat) (x : Nat) (h : x < prod s) : ravel s (unravel s x) = x := by
  induction s generalizing x with
  | nil => simp [prod] at h; simp [ravel, h]
  | cons k s ih =>
    rw [prod_cons] at h
    have hpos : 0 < prod s := Nat.pos_of_ne_zero (by rintro h0; rw [h0] at h; simp at h)
    rw [unravel, ravel, ih _ (Nat.mod_lt _ hpos)]
    exact Nat.div_add_mod' x (prod s)

theorem ravel_append (s1 s2 i1 i2 : List Nat) (h : i1.length = s1.length) :
    ravel (s1 ++ s2) (i1 ++ i2) = ravel s1 i1 * prod s2 + ravel s2 i2 := by
  induction s1 generalizing i1 with
  | nil => simp at h; simp [h, ravel]
  | cons k s1 ih =>
    cases i1 with
    | nil => simp at h
    | cons x i1 =>
      simp at h
      rw [List.cons_append, List.cons_append, ravel, ravel, ih i1 h, prod_append, Nat.add_mul,
        Nat.mul_assoc, Nat.add_assoc]

theorem InShape.append {i1 i2 s1 s2 : List Nat} (h1 : InShape i1 s1) (h2 : InShape i2 s2) :
    InShape (i1 ++ i2) (s1 ++ s2) := List.rel_append h1 h2

theorem InShape.cons {i s : List Nat} {x k : Nat} (h1 : x < k) (h2 : InShape i s) :
    InShape (x :: i) (k :: s) := List.Forall₂.cons h1 h2

/-- Reshaping the axes before and after a middle axis separately. -/
theorem unravel_middle (pre post pre' post' : List Nat) (m : Nat) (hpre : prod pre' = prod pre)
    (hpost : prod post' = prod post) (i j : List Nat) (x : Nat) (hi : InShape i pre') (hx : x < m)
    (hj : InShape j post') :
    unravel (pre ++ m :: post) (ravel (pre' ++ m :: post') (i ++ x :: j))
      = unravel pre (ravel pre' i) ++ x :: unravel post (ravel post' j) := by
  have h1 := ravel_lt hi
  have h2 := ravel_lt hj
  rw [hpre] at h1
  rw [hpost] at h2
  have hin : InShape (unravel pre (ravel pre' i) ++ x :: unravel post (ravel post' j))
      (pre ++ m :: post) := (unravel_in _ _ h1).append (.cons hx (unravel_in _ _ h2))
  have e : ravel (pre' ++ m :: post') (i ++ x :: j)
      = ravel (pre ++ m :: post) (unravel pre (ravel pre' i) ++ x :: unravel post (ravel post' j)) := by
    rw [ravel_append _ _ _ _ hi.length, ravel_append _ _ _ _ (unravel_in _ _ h1).length,
      ravel_unravel _ _ h1, ravel, ravel, ravel_unravel _ _ h2, prod_cons, prod_cons, hpost]
  rw [e, unravel_ravel hin]

theorem InShape.reverse {i s : List Nat} (h : InShape i s) : InShape i.reverse s.reverse :=
  List.rel_reverse h

theorem ravelO_lt (o : Order) {i s : List Nat} (h : InShape i s) : ravelO o s i < prod s := by
  cases o with
  | c => exact ravel_lt h
  | f => have := ravel_lt h.reverse; rwa [prod_reverse] at this

theorem unravelO_in (o : Order) (s : List Nat) (x : Nat) (h : x < prod s) : InShape (unravelO o s x) s := by
  cases o with
  | c => exact unravel_in s x h
  | f =>
    have := (unravel_in s.reverse x (by rwa [prod_reverse])).reverse
    rwa [List.reverse_reverse] at this

/-- `unravelO` finds the multi-index at a position … -/
theorem unravelO_ravelO (o : Order) {i s : List Nat} (h : InShape i s) : unravelO o s (ravelO o s i) = i := by
  cases o with
  | c => exact unravel_ravel h
  | f => show (unravel s.reverse (ravel s.reverse i.reverse)).reverse = i
         rw [unravel_ravel h.reverse, List.reverse_reverse]

/-- … and `ravelO` the position of a multi-index. -/
theorem ravelO_unravelO (o : Order) (s : List Nat) (x : Nat) (h : x < prod s) :
    ravelO o s (unravelO o s x) = x := by
  cases o with
  | c => exact ravel_unravel s x h
  | f => show ravel s.reverse (unravel s.reverse x).reverse.reverse = x
         rw [List.reverse_reverse, ravel_unravel _ _ (by rwa [prod_reverse])]

theorem unravelO_middle (o : Order) (pre post pre' post' : List Nat) (m : Nat)
    (hpre : prod pre' = prod pre) (hpost : prod post' = prod post) (i j : List Nat) (x : Nat)
    (hi : InShape i pre') (hx : x < m) (hj : InShape j post') :
    unravelO o (pre ++ m :: post) (ravelO o (pre' ++ m :: post') (i ++ x :: j))
      = unravelO o pre (ravelO o pre' i) ++ x :: unravelO o post (ravelO o post' j) := by
  cases o with
  | c => exact unravel_middle pre post pre' post' m hpre hpost i j x hi hx hj
  | f =>
    have h := unravel_middle post.reverse pre.reverse post'.reverse pre'.reverse m
      (by rw [prod_reverse, prod_reverse, hpost]) (by rw [prod_reverse, prod_reverse, hpre])
      j.reverse i.reverse x hj.reverse hx hi.reverse
    simp only [unravelO, ravelO, List.reverse_append, List.reverse_cons, List.append_assoc,
      List.singleton_append]
    rw [h]
    simp

theorem InShape.split {I s t : List Nat} (h : InShape I (s ++ t)) :
    ∃ i j, InShape i s ∧ InShape j t ∧ I = i ++ j := by
  induction s generalizing I with
  | nil => exact ⟨[], I, List.Forall₂.nil, h, rfl⟩
  | cons k s ih =>
    obtain ⟨x, I', hx, hI, rfl⟩ := List.forall₂_cons_right_iff.1 h
    obtain ⟨i, j, hi, hj, rfl⟩ := ih hI
    exact ⟨x :: i, j, .cons hx hi, hj, rfl⟩

theorem modify_middle (i j : List Nat) (x : Nat) (f : Nat → Nat) :
    (i ++ x :: j).modify i.length f = i ++ f x :: j := by
  induction i with
  | nil => rfl
  | cons y i ih => rw [List.cons_append, List.length_cons, List.modify_succ_cons, ih]; rfl

/-! ### The checks of the shape -/

theorem iprod_cons (k : Int) (s : List Int) : iprod (k :: s) = k * iprod s := rfl

theorem iprod_append (s t : List Int) : iprod (s ++ t) = iprod s * iprod t := by
  induction s with
  | nil => simp [iprod]
  | cons k s ih => rw [List.cons_append, iprod_cons, iprod_cons, ih, mul_assoc]

theorem iprod_nats (s : List Nat) : iprod (s.map fun (k : Nat) => (k : Int)) = prod s := by
  induction s with
  | nil => rfl
  | cons k s ih => rw [List.map_cons, iprod_cons, prod_cons, ih]; simp

theorem scan_wild (t : List (Option Int)) (ii p : Nat) (size : Int) (v : List Int) (w : Option Nat)
    (z : Int) : scan t ii (some p) size = .ok (v, w, z) ↔
      t = v.map some ∧ -1 ∉ v ∧ w = some p ∧ z = size * iprod v := by
  induction t generalizing ii size v with
  | nil =>
    simp only [scan, Except.ok.injEq, Prod.mk.injEq]
    constructor
    · rintro ⟨rfl, rfl, rfl⟩; simp [iprod]
    · rintro ⟨h, _, rfl, rfl⟩
      cases v with
      | nil => simp [iprod]
      | cons => simp at h
  | cons s t ih =>
    cases s with
    | none =>
      simp only [scan]
      constructor
      · intro h; simp at h
      · rintro ⟨h, _⟩; cases v <;> simp at h
    | some s =>
      simp only [scan]
      by_cases hs : s = -1
      · rw [if_pos hs, if_neg (by simp)]
        constructor
        · intro h; simp at h
        · rintro ⟨h, h2, _⟩
          cases v with
          | nil => simp at h
          | cons x v => simp at h; exact absurd (by simp [← h.1, hs]) h2
      · rw [if_neg hs]
        constructor
        · intro h
          cases hr : scan t (ii + 1) (some p) (size * s) with
          | error e => rw [hr] at h; simp [Except.map] at h
          | ok res =>
            obtain ⟨v', w', z'⟩ := res
            rw [hr] at h
            simp only [Except.map, Except.ok.injEq, Prod.mk.injEq] at h
            obtain ⟨rfl, rfl, rfl⟩ := h
            obtain ⟨h1, h2, h3, h4⟩ := (ih _ _ _).1 hr
            refine ⟨by simp [h1], by simp [h2, Ne.symm hs], h3, ?_⟩
            rw [h4, iprod_cons, mul_assoc]
        · rintro ⟨h, h2, rfl, rfl⟩
          cases v with
          | nil => simp at h
          | cons x v =>
            simp at h
            obtain ⟨rfl, h⟩ := h
            rw [(ih (ii + 1) (size * s) v).2 ⟨h, by simp at h2; exact h2.2, rfl, by rw [iprod_cons, mul_assoc]⟩]
            rfl

theorem scan_none (t : List (Option Int)) (ii : Nat) (size : Int) (v : List Int) (w : Option Nat)
    (z : Int) : scan t ii none size = .ok (v, w, z) ↔
      t = v.map some ∧ ((-1 ∉ v ∧ w = none ∧ z = size * iprod v) ∨
        ∃ l r, v = l ++ -1 :: r ∧ -1 ∉ l ∧ -1 ∉ r ∧ w = some (ii + l.length) ∧
          z = size * (iprod l * iprod r)) := by
  induction t generalizing ii size v with
  | nil =>
    simp only [scan, Except.ok.injEq, Prod.mk.injEq]
    constructor
    · rintro ⟨rfl, rfl, rfl⟩; simp [iprod]
    · rintro ⟨h, h2⟩
      cases v with
      | nil =>
        rcases h2 with ⟨_, rfl, rfl⟩ | ⟨l, r, h2, _⟩
        · simp [iprod]
        · simp at h2
      | cons => simp at h
  | cons s t ih =>
    cases s with
    | none =>
      simp only [scan]
      constructor
      · intro h; simp at h
      · rintro ⟨h, _⟩; cases v <;> simp at h
    | some s =>
      simp only [scan]
      by_cases hs : s = -1
      · subst hs
        rw [if_pos rfl, if_pos trivial]
        constructor
        · intro h
          cases hr : scan t (ii + 1) (some ii) size with
          | error e => rw [hr] at h; simp [Except.map] at h
          | ok res =>
            obtain ⟨v', w', z'⟩ := res
            rw [hr] at h
            simp only [Except.map, Except.ok.injEq, Prod.mk.injEq] at h
            obtain ⟨rfl, rfl, rfl⟩ := h
            obtain ⟨h1, h2, h3, h4⟩ := (scan_wild _ _ _ _ _ _ _).1 hr
            exact ⟨by simp [h1], .inr ⟨[], v', rfl, by simp, h2, by simp [h3], by simp [h4, iprod]⟩⟩
        · rintro ⟨h, h2⟩
          cases v with
          | nil => simp at h
          | cons x v =>
            simp at h
            obtain ⟨rfl, h⟩ := h
            rcases h2 with ⟨h3, _⟩ | ⟨l, r, h3, h4, h5, rfl, rfl⟩
            · simp at h3
            · cases l with
              | cons y l => simp at h3; simp [← h3.1] at h4
              | nil =>
                simp at h3
                subst h3
                rw [(scan_wild t (ii + 1) ii size v (some ii) (size * iprod v)).2 ⟨h, h5, rfl, rfl⟩]
                simp [Except.map, iprod]
      · rw [if_neg hs]
        constructor
        · intro h
          cases hr : scan t (ii + 1) none (size * s) with
          | error e => rw [hr] at h; simp [Except.map] at h
          | ok res =>
            obtain ⟨v', w', z'⟩ := res
            rw [hr] at h
            simp only [Except.map, Except.ok.injEq, Prod.mk.injEq] at h
            obtain ⟨rfl, rfl, rfl⟩ := h
            obtain ⟨h1, h2⟩ := (ih _ _ _).1 hr
            refine ⟨by simp [h1], ?_⟩
            rcases h2 with ⟨h2, h3, h4⟩ | ⟨l, r, h3, h4, h5, h6, h7⟩
            · left
              exact ⟨by simp [h2, Ne.symm hs], h3, by rw [h4, iprod_cons, mul_assoc]⟩
            · right
              refine ⟨s :: l, r, by simp [h3], by simp [h4, Ne.symm hs], h5, ?_, ?_⟩
              · rw [h6, List.length_cons]; congr 1; omega
              · rw [h7, iprod_cons]; ring
        · rintro ⟨h, h2⟩
          cases v with
          | nil => simp at h
          | cons x v =>
            simp at h
            obtain ⟨rfl, h⟩ := h
            rcases h2 with ⟨h3, rfl, rfl⟩ | ⟨l, r, h3, h4, h5, rfl, rfl⟩
            · rw [(ih (ii + 1) (size * s) v).2 ⟨h, .inl ⟨by simp at h3; exact h3.2, rfl, by rw [iprod_cons, mul_assoc]⟩⟩]
              rfl
            · cases l with
              | nil => simp at h3; exact absurd h3.1 hs
              | cons y l =>
                simp at h3
                obtain ⟨rfl, rfl⟩ := h3
                rw [(ih (ii + 1) (size * s) (l ++ -1 :: r)).2
                  ⟨h, .inr ⟨l, r, rfl, by simp at h4; exact h4.2, h5,
                    by rw [List.length_cons]; congr 1; omega, by rw [iprod_cons]; ring⟩⟩]
                rfl

/-- What `_check_shapes` decides. -/
def AsksZ (t : List (Option Int)) (p : Nat) (v : List Int) : Prop :=
  iprod v = p ∧
  ((t = v.map some ∧ -1 ∉ v) ∨
    ∃ l r k, v = l ++ k :: r ∧ iprod l * iprod r ≠ 0 ∧ -1 ∉ l ∧ -1 ∉ r ∧
      t = l.map some ++ some (-1) :: r.map some)

theorem check_iff (cur : List Nat) (t : List (Option Int)) (v : List Int) :
    checkShapes cur t = .ok v ↔ AsksZ t (prod cur) v := by
  unfold checkShapes
  constructor
  · intro h
    cases hr : scan t 0 none 1 with
    | error e => rw [hr] at h; simp at h
    | ok res =>
      obtain ⟨v', w, z⟩ := res
      rw [hr] at h
      simp only at h
      obtain ⟨h1, h2⟩ := (scan_none _ _ _ _ _ _).1 hr
      rcases h2 with ⟨h2, rfl, rfl⟩ | ⟨l, r, rfl, h4, h5, rfl, rfl⟩
      · simp only [finish] at h
        by_cases hc : (prod cur : Int) = 1 * iprod v'
        · rw [if_pos hc] at h
          cases h
          exact ⟨by rw [hc, one_mul], .inl ⟨h1, h2⟩⟩
        · rw [if_neg hc] at h; simp at h
      · simp only [finish, one_mul] at h
        by_cases hz : iprod l * iprod r = 0
        · rw [if_pos hz] at h; simp at h
        · rw [if_neg hz] at h
          by_cases hd : Int.fmod (prod cur : Int) (iprod l * iprod r) = 0
          · rw [if_pos hd] at h
            cases h
            have e : (l ++ -1 :: r).set (0 + l.length) (Int.fdiv (prod cur : Int) (iprod l * iprod r))
                = l ++ Int.fdiv (prod cur : Int) (iprod l * iprod r) :: r := by simp
            rw [e]
            refine ⟨?_, .inr ⟨l, r, _, rfl, hz, h4, h5, by simp [h1]⟩⟩
            have := Int.mul_fdiv_add_fmod (prod cur : Int) (iprod l * iprod r)
            rw [hd, add_zero] at this
            rw [iprod_append, iprod_cons]
            linarith
          · rw [if_neg hd] at h; simp at h
  · rintro ⟨h, ⟨rfl, h2⟩ | ⟨l, r, k, rfl, h2, h3, h4, rfl⟩⟩
    · rw [(scan_none (v.map some) 0 1 v none (1 * iprod v)).2 ⟨rfl, .inl ⟨h2, rfl, rfl⟩⟩]
      simp only [finish]
      rw [if_pos (by rw [h, one_mul])]
    · rw [(scan_none _ 0 1 (l ++ -1 :: r) (some (0 + l.length)) (1 * (iprod l * iprod r))).2
        ⟨by simp, .inr ⟨l, r, rfl, h3, h4, rfl, rfl⟩⟩]
      simp only [finish, one_mul]
      rw [iprod_append, iprod_cons] at h
      have e : (prod cur : Int) = k * (iprod l * iprod r) := by rw [← h]; ring
      rw [if_neg h2, e, if_pos (Int.mul_fmod_left ..), Int.mul_fdiv_cancel _ h2]
      simp

theorem AsksZ_nats (t : List (Option Int)) (p : Nat) (new : List Nat) :
    AsksZ t p (new.map fun (k : Nat) => (k : Int)) ↔ Asks t p new := by
  unfold AsksZ Asks
  rw [iprod_nats]
  have hm : ∀ l : List Nat, (-1 : Int) ∉ l.map fun (k : Nat) => (k : Int) := by
    intro l h
    obtain ⟨k, _, hk⟩ := List.mem_map.1 h
    omega
  constructor
  · rintro ⟨h, ⟨h1, _⟩ | ⟨l, r, k, h1, h2, h3, h4, rfl⟩⟩
    · exact ⟨by exact_mod_cast h, .inl (by rw [h1, List.map_map]; rfl)⟩
    · obtain ⟨l', r', e1, rfl, e2⟩ := List.map_eq_append_iff.1 h1
      obtain ⟨k', r'', rfl, rfl, rfl⟩ := List.map_eq_cons_iff.1 e2
      rw [iprod_nats, iprod_nats] at h2
      exact ⟨by exact_mod_cast h, .inr ⟨l', r'', k', e1, by exact_mod_cast h2, by
        rw [List.map_map, List.map_map]; rfl⟩⟩
  · rintro ⟨rfl, rfl | ⟨l, r, k, rfl, h2, rfl⟩⟩
    · exact ⟨rfl, .inl ⟨by rw [List.map_map]; rfl, hm _⟩⟩
    · exact ⟨rfl, .inr ⟨l.map fun (k : Nat) => (k : Int), r.map fun (k : Nat) => (k : Int), (k : Int), by simp,
        by rw [iprod_nats, iprod_nats]; exact_mod_cast h2, hm _, hm _,
        by rw [List.map_map, List.map_map]; rfl⟩⟩

theorem AsksZ_cons (L : Nat) (hL : 0 < L) (t : List (Option Int)) (p : Nat) (v : List Int) :
    AsksZ (some (L : Int) :: t) (L * p) v ↔ ∃ v', v = (L : Int) :: v' ∧ AsksZ t p v' := by
  have hL' : (L : Int) ≠ 0 := by omega
  unfold AsksZ
  constructor
  · rintro ⟨h, ⟨h1, h2⟩ | ⟨l, r, k, rfl, h2, h3, h4, h5⟩⟩
    · cases v with
      | nil => simp at h1
      | cons x v =>
        simp at h1
        obtain ⟨rfl, rfl⟩ := h1
        rw [iprod_cons] at h
        push_cast at h
        exact ⟨v, rfl, mul_left_cancel₀ hL' h, .inl ⟨rfl, fun hm => h2 (List.mem_cons_of_mem _ hm)⟩⟩
    · cases l with
      | nil => simp at h5
      | cons x l =>
        simp at h5
        obtain ⟨rfl, rfl⟩ := h5
        rw [List.cons_append, iprod_cons] at h
        push_cast at h
        refine ⟨l ++ k :: r, rfl, mul_left_cancel₀ hL' h, .inr ⟨l, r, k, rfl, ?_, ?_, h4, rfl⟩⟩
        · rw [iprod_cons, mul_assoc] at h2; exact right_ne_zero_of_mul h2
        · exact fun hm => h3 (List.mem_cons_of_mem _ hm)
  · rintro ⟨v', rfl, h, ⟨rfl, h2⟩ | ⟨l, r, k, rfl, h2, h3, h4, rfl⟩⟩
    · exact ⟨by rw [iprod_cons, h]; push_cast; rfl, .inl ⟨rfl, by simp [h2]⟩⟩
    · refine ⟨by rw [iprod_cons, h]; push_cast; rfl, .inr ⟨(L : Int) :: l, r, k, rfl, ?_, ?_, h4, rfl⟩⟩
      · rw [iprod_cons, mul_assoc]; exact mul_ne_zero hL' h2
      · simp [h3]

theorem iprod_reverse (s : List Int) : iprod s.reverse = iprod s := by
  induction s with
  | nil => rfl
  | cons k s ih =>
    rw [List.reverse_cons, iprod_append, ih, iprod_cons, iprod_cons, mul_comm]
    simp [iprod]

theorem AsksZ_reverse (t : List (Option Int)) (p : Nat) (v : List Int) (h : AsksZ t p v) :
    AsksZ t.reverse p v.reverse := by
  obtain ⟨h, ⟨rfl, h2⟩ | ⟨l, r, k, rfl, h2, h3, h4, rfl⟩⟩ := h
  · exact ⟨by rw [iprod_reverse, h], .inl ⟨by simp, by simpa using h2⟩⟩
  · refine ⟨by rw [iprod_reverse, h], .inr ⟨r.reverse, l.reverse, k, by simp, ?_, by simpa using h4,
      by simpa using h3, by simp⟩⟩
    rw [iprod_reverse, iprod_reverse, mul_comm]; exact h2

theorem AsksZ_concat (L : Nat) (hL : 0 < L) (t : List (Option Int)) (p : Nat) (v : List Int) :
    AsksZ (t ++ [some (L : Int)]) (p * L) v ↔ ∃ v', v = v' ++ [(L : Int)] ∧ AsksZ t p v' := by
  constructor
  · intro h
    have h' := AsksZ_reverse _ _ _ h
    rw [List.reverse_append, List.reverse_singleton, List.singleton_append, Nat.mul_comm] at h'
    obtain ⟨v', h1, h2⟩ := (AsksZ_cons L hL _ _ _).1 h'
    refine ⟨v'.reverse, ?_, ?_⟩
    · rw [← List.reverse_reverse v, h1, List.reverse_cons]
    · have := AsksZ_reverse _ _ _ h2
      rwa [List.reverse_reverse] at this
  · rintro ⟨v', rfl, h⟩
    have := AsksZ_reverse _ _ _ ((AsksZ_cons L hL _ _ _).2 ⟨_, rfl, AsksZ_reverse _ _ _ h⟩)
    rw [List.reverse_cons, List.reverse_cons, List.reverse_reverse, List.reverse_reverse,
      Nat.mul_comm] at this
    exact this

theorem iprod_nonneg (s : List Int) (h : ∀ x ∈ s, 0 ≤ x) : 0 ≤ iprod s := by
  induction s with
  | nil => simp [iprod]
  | cons k s ih =>
    rw [iprod_cons]
    exact mul_nonneg (h k (by simp)) (ih fun x hx => h x (by simp [hx]))

theorem iprod_filter (s : List Int) :
    iprod s = iprod (s.filter (· < 0)) * iprod (s.filter (0 ≤ ·)) := by
  induction s with
  | nil => simp [iprod]
  | cons k s ih =>
    by_cases hk : k < 0
    · rw [List.filter_cons_of_pos (by simpa using hk), List.filter_cons_of_neg (by simpa using hk),
        iprod_cons, iprod_cons, ih, mul_assoc]
    · rw [List.filter_cons_of_neg (by simpa using hk), List.filter_cons_of_pos (by simp at hk ⊢; exact hk),
        iprod_cons, iprod_cons, ih]
      ring

/-- Once the sizes agree, `numpy` accepts exactly the shapes without negative entries. -/
theorem npShape_iff (size : Nat) (dims : List Int) (h : iprod dims = size) (new : List Nat) :
    npShape size dims = .ok new ↔ dims = new.map fun (k : Nat) => (k : Int) := by
  unfold npShape
  constructor
  · intro hn
    cases hf : dims.filter (· < 0) with
    | nil =>
      rw [hf] at hn
      simp only at hn
      rw [if_pos h] at hn
      cases hn
      rw [List.map_map]
      have hneg := List.filter_eq_nil_iff.1 hf
      rw [List.map_congr_left (g := id)]
      · simp
      · intro x hx
        have := hneg x hx
        simp at this
        simp [this]
    | cons k ks =>
      cases ks with
      | cons => rw [hf] at hn; simp at hn
      | nil =>
        exfalso
        rw [hf] at hn
        simp only at hn
        by_cases hz : iprod (dims.filter (0 ≤ ·)) = 0
        · rw [if_pos hz] at hn; simp at hn
        · have h1 := iprod_filter dims
          rw [hf, h, iprod_cons] at h1
          have hk : k < 0 := by
            have : k ∈ dims.filter (· < 0) := by rw [hf]; simp
            simpa using (List.mem_filter.1 this).2
          have hp := iprod_nonneg (dims.filter (0 ≤ ·)) (fun x hx => by
            simpa using (List.mem_filter.1 hx).2)
          have hp' : 0 < iprod (dims.filter (0 ≤ ·)) := lt_of_le_of_ne hp (Ne.symm hz)
          have : k * iprod (dims.filter (0 ≤ ·)) < 0 := mul_neg_of_neg_of_pos hk hp'
          simp [iprod] at h1 this
          omega
  · rintro rfl
    have : (new.map fun (k : Nat) => (k : Int)).filter (· < 0) = [] := by
      rw [List.filter_eq_nil_iff]
      intro x hx
      obtain ⟨k, _, rfl⟩ := List.mem_map.1 hx
      simp
    rw [this]
    simp only
    rw [if_pos h, List.map_map, List.map_congr_left (g := id)]
    · simp
    · intro x _; simp

theorem findNone (t : List (Option Int)) (k : Nat) :
    t.findIdx? (·.isNone) = some k ↔
      ∃ tpre tpost, t = tpre ++ none :: tpost ∧ (∀ x ∈ tpre, x ≠ none) ∧ tpre.length = k := by
  induction t generalizing k with
  | nil => simp
  | cons x t ih =>
    rw [List.findIdx?_cons]
    cases x with
    | none =>
      rw [if_pos (by rfl)]
      constructor
      · intro h; cases h; exact ⟨[], t, rfl, by simp, rfl⟩
      · rintro ⟨tpre, tpost, h1, h2, rfl⟩
        cases tpre with
        | nil => rfl
        | cons y tpre => simp at h1; exact absurd h1.1.symm (h2 y (by simp))
    | some x =>
      rw [if_neg (by simp)]
      constructor
      · intro h
        obtain ⟨k', h1, rfl⟩ := Option.map_eq_some_iff.1 h
        obtain ⟨tpre, tpost, rfl, h3, rfl⟩ := (ih k').1 h1
        refine ⟨some x :: tpre, tpost, rfl, ?_, rfl⟩
        intro y hy
        rcases List.mem_cons.1 hy with rfl | hy
        · simp
        · exact h3 y hy
      · rintro ⟨tpre, tpost, h1, h2, rfl⟩
        cases tpre with
        | nil => simp at h1
        | cons y tpre =>
          simp at h1
          obtain ⟨rfl, rfl⟩ := h1
          rw [(ih tpre.length).2 ⟨tpre, tpost, rfl, fun z hz => h2 z (by simp [hz]), rfl⟩]
          rfl

theorem Asks.ne_none {t : List (Option Int)} {p : Nat} {new : List Nat} (h : Asks t p new) :
    (∀ x ∈ t, x ≠ none) ∧ t.length = new.length := by
  obtain ⟨_, rfl | ⟨l, r, k, rfl, _, rfl⟩⟩ := h
  · constructor
    · intro x hx; obtain ⟨k, _, rfl⟩ := List.mem_map.1 hx; simp
    · simp
  · constructor
    · intro x hx
      simp only [List.mem_append, List.mem_map, List.mem_cons] at hx
      rcases hx with ⟨k, _, rfl⟩ | rfl | ⟨k, _, rfl⟩ <;> simp
    · simp

theorem AsksZ.length {t : List (Option Int)} {p : Nat} {v : List Int} (h : AsksZ t p v) :
    v.length = t.length := by
  obtain ⟨_, ⟨rfl, _⟩ | ⟨l, r, k, rfl, _, _, _, rfl⟩⟩ := h <;> simp

/-- What the checks decide on a process with a non-empty block. -/
theorem plan_iff (pre post : List Nat) (L : Nat) (hL : 0 < L) (target : List (Option Int))
    (dims : List Int) (k : Nat) :
    plan (pre ++ L :: post) (pre.length : Nat) target = .ok (dims, k) ↔
      ∃ tpre tpost A B, target = tpre ++ none :: tpost ∧ (∀ x ∈ tpre, x ≠ none) ∧ tpre.length = k ∧
        AsksZ tpre (prod pre) A ∧ AsksZ tpost (prod post) B ∧ dims = A ++ (L : Int) :: B := by
  have hget : pyGet (pre ++ L :: post) (pre.length : Nat) = .ok L := by simp [pyGet]
  have hfrom : fromIdx (pre ++ L :: post) (pre.length : Nat) = L :: post := by simp [fromIdx]
  have hupto : uptoIdx (pre ++ L :: post) ((pre.length : Nat) + 1) = pre ++ [L] := by
    unfold uptoIdx
    rw [if_pos (by omega), show ((pre.length : Int) + 1).toNat = pre.length + 1 by omega,
      List.take_append, List.take_of_length_le (by omega)]
    simp
  have hp1 : prod (L :: post) = L * prod post := prod_cons L post
  have hp2 : prod (pre ++ [L]) = prod pre * L := by rw [prod_append]; simp [prod]
  unfold plan
  constructor
  · intro h
    cases hf : target.findIdx? (·.isNone) with
    | none => rw [hf] at h; simp at h
    | some k' =>
      obtain ⟨tpre, tpost, rfl, h2, rfl⟩ := (findNone target k').1 hf
      rw [hf] at h
      simp only [hget, hfrom, hupto, bind, Except.bind, pure, Except.pure] at h
      have e1 : ((tpre ++ none :: tpost).set tpre.length (some (L : Int))).drop tpre.length
          = some (L : Int) :: tpost := by simp
      have e2 : ((tpre ++ none :: tpost).set tpre.length (some (L : Int))).take (tpre.length + 1)
          = tpre ++ [some (L : Int)] := by simp [List.take_append, List.take_of_length_le]
      rw [e1, e2] at h
      cases hc1 : checkShapes (L :: post) (some (L : Int) :: tpost) with
      | error e => rw [hc1] at h; simp at h
      | ok v1 =>
        cases hc2 : checkShapes (pre ++ [L]) (tpre ++ [some (L : Int)]) with
        | error e => rw [hc1, hc2] at h; simp at h
        | ok v2 =>
          rw [hc1, hc2] at h
          simp only [Except.ok.injEq, Prod.mk.injEq] at h
          obtain ⟨rfl, rfl⟩ := h
          rw [check_iff, hp1, AsksZ_cons L hL] at hc1
          rw [check_iff, hp2, AsksZ_concat L hL] at hc2
          obtain ⟨B, rfl, hB⟩ := hc1
          obtain ⟨A, rfl, hA⟩ := hc2
          refine ⟨tpre, tpost, A, B, rfl, h2, rfl, hA, hB, ?_⟩
          rw [← hA.length]; simp
  · rintro ⟨tpre, tpost, A, B, rfl, h2, rfl, hA, hB, rfl⟩
    rw [(findNone (tpre ++ none :: tpost) tpre.length).2 ⟨tpre, tpost, rfl, h2, rfl⟩]
    simp only [hget, hfrom, hupto, bind, Except.bind, pure, Except.pure]
    have e1 : ((tpre ++ none :: tpost).set tpre.length (some (L : Int))).drop tpre.length
        = some (L : Int) :: tpost := by simp
    have e2 : ((tpre ++ none :: tpost).set tpre.length (some (L : Int))).take (tpre.length + 1)
        = tpre ++ [some (L : Int)] := by simp [List.take_append, List.take_of_length_le]
    rw [e1, e2, (check_iff _ _ _).2 (by rw [hp1]; exact (AsksZ_cons L hL _ _ _).2 ⟨B, rfl, hB⟩),
      (check_iff _ _ _).2 (by rw [hp2]; exact (AsksZ_concat L hL _ _ _).2 ⟨A, rfl, hA⟩)]
    simp only [Except.ok.injEq, Prod.mk.injEq, and_true]
    rw [← hA.length]; simp

theorem reshape_iff {α : Type} (self : DArr α) (o : Order) (pre post : List Nat) (L : Nat) (hL : 0 < L)
    (hs : self.shape = pre ++ L :: post) (ha : self.axis = pre.length) (target : List (Option Int))
    (res : DArr α) :
    reshape self o target = .ok res ↔
      ∃ tpre tpost pre' post', target = tpre ++ none :: tpost ∧ Asks tpre (prod pre) pre' ∧
        Asks tpost (prod post) post' ∧
        res = { shape := pre' ++ L :: post'
                val := fun i => self.val (unravelO o self.shape (ravelO o (pre' ++ L :: post') i))
                axis := tpre.length, glen := self.glen, off := self.off } := by
  have hsize : prod self.shape = prod pre * (L * prod post) := by rw [hs, prod_append, prod_cons]
  unfold reshape
  simp only [bind, Except.bind, pure, Except.pure]
  constructor
  · intro h
    cases hp : plan self.shape self.axis target with
    | error e => rw [hp] at h; simp at h
    | ok dk =>
      obtain ⟨dims, k⟩ := dk
      rw [hp] at h
      simp only at h
      rw [hs, ha] at hp
      obtain ⟨tpre, tpost, A, B, rfl, h2, rfl, hA, hB, rfl⟩ := (plan_iff pre post L hL _ _ _).1 hp
      cases hn : npShape (prod self.shape) (A ++ (L : Int) :: B) with
      | error e => rw [hn] at h; simp at h
      | ok new =>
        rw [hn] at h
        simp only [Except.ok.injEq] at h
        have hi : iprod (A ++ (L : Int) :: B) = (prod self.shape : Nat) := by
          rw [iprod_append, iprod_cons, hA.1, hB.1, hsize]; push_cast; rfl
        have := (npShape_iff _ _ hi new).1 hn
        obtain ⟨A', B1, rfl, rfl, e2⟩ := List.map_eq_append_iff.1 this.symm
        obtain ⟨k', B', rfl, e3, rfl⟩ := List.map_eq_cons_iff.1 e2
        have e4 : k' = L := by exact_mod_cast e3
        subst e4
        exact ⟨tpre, tpost, A', B', rfl, (AsksZ_nats _ _ _).1 hA, (AsksZ_nats _ _ _).1 hB, h.symm⟩
  · rintro ⟨tpre, tpost, pre', post', rfl, hA, hB, rfl⟩
    rw [hs, ha, (plan_iff pre post L hL _ _ _).2 ⟨tpre, tpost, _, _, rfl, hA.ne_none.1, rfl,
      (AsksZ_nats _ _ _).2 hA, (AsksZ_nats _ _ _).2 hB, rfl⟩]
    simp only
    rw [(npShape_iff (prod (pre ++ L :: post)) _ (by
      rw [iprod_append, iprod_cons, iprod_nats, iprod_nats, hA.1, hB.1, prod_append, prod_cons]
      push_cast; rfl) (pre' ++ L :: post')).2 (by simp)]

end Verif.Reshape
