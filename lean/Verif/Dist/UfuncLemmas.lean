import Verif.Dist.UfuncSpec
import Verif.Dist.Lemmas
import Mathlib.Order.Nat
import Mathlib.Algebra.Order.Ring.Int

/-!
# Lemmas about broadcasting and about the checks of universal functions
-/
namespace Verif.Dist

open Verif.Mpi (blockStart blockLen)
open Verif.Reshape (InShape)

variable {α β : Type}

theorem foldl_max [LinearOrder β] (l : List β) (b : β) :
    (l.foldl max b = b ∨ l.foldl max b ∈ l) ∧ b ≤ l.foldl max b ∧ ∀ x ∈ l, x ≤ l.foldl max b := by
  induction l generalizing b with
  | nil => simp
  | cons x l ih =>
    obtain ⟨h1, h2, h3⟩ := ih (max b x)
    simp only [List.foldl_cons]
    refine ⟨?_, le_trans (le_max_left _ _) h2, ?_⟩
    · rcases h1 with h1 | h1
      · rw [h1]
        rcases max_choice b x with h | h
        · left; exact h
        · right; rw [h]; exact List.mem_cons_self ..
      · right; exact List.mem_cons_of_mem _ h1
    · intro y hy
      rcases List.mem_cons.1 hy with rfl | hy
      · exact le_trans (le_max_right _ _) h2
      · exact h3 y hy

theorem mapM_opt_iff {γ : Type} (f : β → Option γ) (l : List β) (s : List γ) :
    l.mapM f = some s ↔ l.length = s.length ∧
      ∀ k (h1 : k < l.length) (h2 : k < s.length), f l[k] = some s[k] := by
  induction l generalizing s with
  | nil => cases s <;> simp
  | cons x l ih =>
    rw [List.mapM_cons]
    cases s with
    | nil => cases f x <;> cases l.mapM f <;> simp
    | cons y s =>
      simp only [Option.bind_eq_bind, Option.bind_eq_some_iff, pure, Option.some.injEq, List.cons.injEq,
        List.length_cons, Nat.add_right_cancel_iff]
      constructor
      · rintro ⟨y', h1, s', h2, rfl, rfl⟩
        obtain ⟨h3, h4⟩ := (ih s').1 h2
        refine ⟨h3, fun k hk1 hk2 => ?_⟩
        cases k with
        | zero => exact h1
        | succ k => exact h4 k (by omega) (by omega)
      · rintro ⟨h1, h2⟩
        refine ⟨y, h2 0 (by omega) (by omega), s, (ih s).2 ⟨h1, fun k h3 h4 => ?_⟩, rfl, rfl⟩
        exact h2 (k + 1) (by omega) (by omega)

theorem bcast_iff (ss : List (List Nat)) (s : List Nat) :
    bcast ss = some s ↔ s.length = maxDim ss ∧
      ∀ k (h : k < s.length), bdim (ss.filterMap fun t => dimAt (maxDim ss) t k) = some s[k] := by
  unfold bcast
  rw [mapM_opt_iff]
  simp only [List.length_range, List.getElem_range]
  constructor
  · rintro ⟨h1, h2⟩
    exact ⟨h1.symm, fun k h => h2 k (by omega) h⟩
  · rintro ⟨h1, h2⟩
    exact ⟨h1.symm, fun k _ h => h2 k h⟩

/-- The common length along one axis: every length is one or equal to it. -/
theorem bdim_foldl (ds : List Nat) (b L : Nat) : ds.foldlM stepDim b = some L ↔
    (∀ d ∈ ds, d = 1 ∨ d = L) ∧ (b = L ∨ (b = 1 ∧ L ∈ ds)) := by
  induction ds generalizing b with
  | nil => simp [pure, eq_comm]
  | cons d ds ih =>
    rw [List.foldlM_cons, show stepDim b d =
      (if d = 1 then some b else if b = 1 then some d else if b = d then some b else none) from rfl]
    by_cases hd : d = 1
    · subst hd
      rw [if_pos rfl]
      simp only [Option.bind_eq_bind, Option.bind_some, ih, List.mem_cons, forall_eq_or_imp, true_or,
        true_and]
      grind
    · rw [if_neg hd]
      by_cases hb : b = 1
      · subst hb
        rw [if_pos rfl]
        simp only [Option.bind_eq_bind, Option.bind_some, ih, List.mem_cons, forall_eq_or_imp]
        grind
      · rw [if_neg hb]
        by_cases hbd : b = d
        · subst hbd
          rw [if_pos rfl]
          simp only [Option.bind_eq_bind, Option.bind_some, ih, List.mem_cons, forall_eq_or_imp]
          grind
        · rw [if_neg hbd]
          simp only [Option.bind_eq_bind, Option.bind_none, List.mem_cons, forall_eq_or_imp]
          grind

theorem bdim_iff (ds : List Nat) (L : Nat) : bdim ds = some L ↔
    (∀ d ∈ ds, d = 1 ∨ d = L) ∧ (L = 1 ∨ L ∈ ds) := by
  unfold bdim
  rw [bdim_foldl]
  grind

theorem maxDim_eq (ss : List (List Nat)) (n : Nat) (h1 : ∃ s ∈ ss, s.length = n)
    (h2 : ∀ s ∈ ss, s.length ≤ n) : maxDim ss = n := by
  obtain ⟨h3, h4, h5⟩ := foldl_max (ss.map List.length) 0
  obtain ⟨s, hs, rfl⟩ := h1
  unfold maxDim
  apply le_antisymm
  · rcases h3 with h3 | h3
    · rw [h3]; exact Nat.zero_le _
    · obtain ⟨t, ht, h6⟩ := List.mem_map.1 h3
      rw [← h6]
      exact h2 t ht
  · exact h5 _ (List.mem_map.2 ⟨s, hs, rfl⟩)

theorem le_maxDim (ss : List (List Nat)) (s : List Nat) (h : s ∈ ss) : s.length ≤ maxDim ss :=
  (foldl_max (ss.map List.length) 0).2.2 _ (List.mem_map.2 ⟨s, h, rfl⟩)

theorem maxDim_lengths (ss ts : List (List Nat)) (h : ss.map List.length = ts.map List.length) :
    maxDim ss = maxDim ts := by
  unfold maxDim
  rw [h]

/-- Broadcasting against the result changes nothing. -/
theorem bcast_self (ss : List (List Nat)) (s : List Nat) (h : bcast ss = some s) :
    bcast (ss ++ [s]) = some s := by
  rw [bcast_iff] at h ⊢
  obtain ⟨h1, h2⟩ := h
  have hm : maxDim (ss ++ [s]) = maxDim ss := by
    apply maxDim_eq
    · exact ⟨s, by simp, h1⟩
    · intro t ht
      rcases List.mem_append.1 ht with ht | ht
      · exact le_maxDim ss t ht
      · rw [List.mem_singleton.1 ht, h1]
  refine ⟨by rw [hm, h1], fun k hk => ?_⟩
  rw [hm, List.filterMap_append]
  have h3 := (bdim_iff _ _).1 (h2 k hk)
  have h4 : [s].filterMap (fun t => dimAt (maxDim ss) t k) = [s[k]] := by
    simp [dimAt, h1, List.getElem?_eq_getElem hk]
  rw [h4, bdim_iff]
  refine ⟨fun d hd => ?_, ?_⟩
  · rcases List.mem_append.1 hd with hd | hd
    · exact h3.1 d hd
    · right; exact List.mem_singleton.1 hd
  · rcases h3.2 with h | h
    · left; exact h
    · right; simp

/-- Length of a block along the aligned axes. -/
theorem dimAt_set (n q a L k : Nat) (s : List Nat) (hs : s.length = a + q) (hq : 0 < q) (hn : s.length ≤ n)
    (hk : k < n) : dimAt n (s.set a L) k = if k = n - q then some L else dimAt n s k := by
  unfold dimAt
  rw [List.length_set]
  by_cases h : k = n - q
  · subst h
    rw [if_pos rfl, if_pos (by omega)]
    have : n - q - (n - s.length) = a := by omega
    rw [this, List.getElem?_set_self (by omega)]
  · rw [if_neg h]
    by_cases h2 : n - s.length ≤ k
    · rw [if_pos h2, if_pos h2, List.getElem?_set_ne (by omega)]
    · rw [if_neg h2, if_neg h2]

theorem filterMap_forall₂ {γ δ : Type} {R : β → γ → Prop} {f : β → Option δ} {g : γ → Option δ}
    {l : List β} {m : List γ} (h : List.Forall₂ R l m) (hfg : ∀ x ∈ l, ∀ y ∈ m, R x y → f x = g y) :
    l.filterMap f = m.filterMap g := by
  induction h with
  | nil => rfl
  | cons h1 _ ih =>
    rw [List.filterMap_cons, List.filterMap_cons, hfg _ (List.mem_cons_self ..) _ (List.mem_cons_self ..) h1,
      ih fun x hx y hy => hfg x (List.mem_cons_of_mem _ hx) y (List.mem_cons_of_mem _ hy)]

theorem LocalOf.length {c : Comm} {g : GArg α} {x : Arg α} (h : LocalOf c g x) :
    x.loc.shape.length = g.glob.shape.length := by
  cases h with
  | num => rfl
  | arr => rfl
  | mpi G a A h => simp [Arg.loc, GArg.glob, h.shape]

theorem lengths_eq {c : Comm} {gs : List (GArg α)} {xs : List (Arg α)} (h : List.Forall₂ (LocalOf c) gs xs) :
    (xs.map Arg.loc).map (fun A => A.shape.length) = (gs.map GArg.glob).map (fun A => A.shape.length) := by
  induction h with
  | nil => rfl
  | cons h1 _ ih => simp only [List.map_cons, h1.length] at ih ⊢; rw [ih]

theorem maxDim_local {c : Comm} {gs : List (GArg α)} {xs : List (Arg α)}
    (h : List.Forall₂ (LocalOf c) gs xs) :
    maxDim ((xs.map Arg.loc).map (·.shape)) = maxDim ((gs.map GArg.glob).map (·.shape)) := by
  apply maxDim_lengths
  have := lengths_eq h
  simpa [List.map_map, Function.comp_def] using this

theorem AlignedArg.pos {N q : Nat} {G : NArr α} {a : Nat} (h : AlignedArg N q (.mpi G a)) : 0 < q := by
  obtain ⟨h1, h2⟩ := h
  have := (List.getElem?_eq_some_iff.1 h2).1
  omega

theorem mem_forall₂ {γ : Type} {R : β → γ → Prop} {l : List β} {m : List γ} (h : List.Forall₂ R l m) {x : β}
    (hx : x ∈ l) : ∃ y ∈ m, R x y := by
  induction h with
  | nil => cases hx
  | cons h1 _ ih =>
    rcases List.mem_cons.1 hx with rfl | hx
    · exact ⟨_, List.mem_cons_self .., h1⟩
    · obtain ⟨y, hy, h2⟩ := ih hx
      exact ⟨y, List.mem_cons_of_mem _ hy, h2⟩

theorem mem_forall₂' {γ : Type} {R : β → γ → Prop} {l : List β} {m : List γ} (h : List.Forall₂ R l m) {y : γ}
    (hy : y ∈ m) : ∃ x ∈ l, R x y := by
  obtain ⟨x, hx, h1⟩ := mem_forall₂ h.flip hy
  exact ⟨x, hx, h1⟩

/-- Under the documented restriction the local arrays can be broadcast exactly if the global ones can,
and the local result shape is the block of the global one. -/
theorem bcast_local {c : Comm} {gs : List (GArg α)} {xs : List (Arg α)} (h : List.Forall₂ (LocalOf c) gs xs)
    (N q : Nat) (hal : Aligned N q gs) (hm : HasMpi gs) (s : List Nat) :
    bcast ((xs.map Arg.loc).map (·.shape)) = some s ↔
      ∃ t, bcast ((gs.map GArg.glob).map (·.shape)) = some t ∧ t[t.length - q]? = some N ∧ 0 < q ∧
        q ≤ t.length ∧ s = t.set (t.length - q) (blockLen N c.size c.rank) := by
  obtain ⟨G, a, hG⟩ := hm
  have hGa : AlignedArg N q (.mpi G a) := hal _ hG
  have hq := hGa.pos
  have hmx := maxDim_local h
  generalize hn : maxDim ((gs.map GArg.glob).map (·.shape)) = n at hmx
  have hle : ∀ g ∈ gs, g.glob.shape.length ≤ n := by
    intro g hg
    rw [← hn]
    exact le_maxDim _ _ (List.mem_map.2 ⟨_, List.mem_map.2 ⟨g, hg, rfl⟩, rfl⟩)
  have hqn : q ≤ n := by
    have := hle _ hG
    have := hGa.1
    simp only [GArg.glob] at *
    omega
  -- lengths along other axes
  have hother : ∀ k, k < n → k ≠ n - q →
      ((xs.map Arg.loc).map (·.shape)).filterMap (fun t => dimAt n t k) =
        ((gs.map GArg.glob).map (·.shape)).filterMap (fun t => dimAt n t k) := by
    intro k hk hkq
    simp only [List.map_map, List.filterMap_map, Function.comp_def]
    symm
    apply filterMap_forall₂ h
    intro g hg x _ hgx
    cases hgx with
    | num => rfl
    | arr => rfl
    | mpi G a A hA =>
      have h1 : AlignedArg N q (.mpi G a) := hal _ hg
      have h2 := hle _ hg
      simp only [GArg.glob, Arg.loc] at h2 ⊢
      rw [hA.shape, dimAt_set n q a _ k _ h1.1 hq h2 hk, if_neg hkq]
  -- lengths along the distributed axis
  have hdist : ∀ d, d ∈ ((xs.map Arg.loc).map (·.shape)).filterMap (fun t => dimAt n t (n - q)) →
      d = 1 ∨ d = blockLen N c.size c.rank := by
    intro d hd
    obtain ⟨t, ht, htd⟩ := List.mem_filterMap.1 hd
    obtain ⟨A0, hA0, rfl⟩ := List.mem_map.1 ht
    obtain ⟨x, hx, rfl⟩ := List.mem_map.1 hA0
    obtain ⟨g, hg, hgx⟩ := mem_forall₂' h hx
    have h1 := hal g hg
    have h2 := hle g hg
    cases hgx with
    | num => simp [Arg.loc, dimAt] at htd
    | arr A =>
      left
      replace htd : dimAt n A.shape (n - q) = some d := htd
      unfold dimAt at htd
      simp only [GArg.glob, AlignedArg] at h1 h2
      by_cases hc : n - A.shape.length ≤ n - q
      · rw [if_pos hc] at htd
        rcases h1 with h1 | h1
        · omega
        · have : n - q - (n - A.shape.length) = A.shape.length - q := by omega
          rw [this, h1] at htd
          exact (Option.some.inj htd).symm
      · rw [if_neg hc] at htd
        simp at htd
    | mpi G a A hA =>
      right
      simp only [Arg.loc, GArg.glob] at htd h2
      rw [hA.shape, dimAt_set n q a _ _ _ h1.1 hq h2 (by omega), if_pos rfl] at htd
      have h3 : G.shape.getD a 0 = N := by rw [List.getD_eq_getElem?_getD, h1.2]; rfl
      rw [h3] at htd
      exact (Option.some.inj htd).symm
  have hdistg : ∀ d, d ∈ ((gs.map GArg.glob).map (·.shape)).filterMap (fun t => dimAt n t (n - q)) →
      d = 1 ∨ d = N := by
    intro d hd
    obtain ⟨t, ht, htd⟩ := List.mem_filterMap.1 hd
    obtain ⟨A, hA, rfl⟩ := List.mem_map.1 ht
    obtain ⟨g, hg, rfl⟩ := List.mem_map.1 hA
    have h1 := hal g hg
    have h2 := hle g hg
    cases g with
    | num => simp [GArg.glob, dimAt] at htd
    | arr A =>
      left
      replace htd : dimAt n A.shape (n - q) = some d := htd
      unfold dimAt at htd
      simp only [GArg.glob, AlignedArg] at h1 h2
      by_cases hc : n - A.shape.length ≤ n - q
      · rw [if_pos hc] at htd
        rcases h1 with h1 | h1
        · omega
        · have : n - q - (n - A.shape.length) = A.shape.length - q := by omega
          rw [this, h1] at htd
          exact (Option.some.inj htd).symm
      · rw [if_neg hc] at htd
        simp at htd
    | mpi G a =>
      right
      replace htd : dimAt n G.shape (n - q) = some d := htd
      unfold dimAt at htd
      simp only [GArg.glob] at h2
      have h3 := h1.1
      rw [if_pos (by omega)] at htd
      have : n - q - (n - G.shape.length) = a := by omega
      rw [this, h1.2] at htd
      exact (Option.some.inj htd).symm
  obtain ⟨x, hx, hxm⟩ := mem_forall₂ h hG
  have hex : blockLen N c.size c.rank ∈
      ((xs.map Arg.loc).map (·.shape)).filterMap (fun t => dimAt n t (n - q)) := by
    refine List.mem_filterMap.2 ⟨x.loc.shape, List.mem_map.2 ⟨_, List.mem_map.2 ⟨x, hx, rfl⟩, rfl⟩, ?_⟩
    cases hxm with
    | mpi _ _ A hA =>
      have h2 := hle _ hG
      simp only [Arg.loc, GArg.glob] at h2 ⊢
      rw [hA.shape, dimAt_set n q a _ _ _ hGa.1 hq h2 (by omega), if_pos rfl, List.getD_eq_getElem?_getD,
        hGa.2]
      rfl
  have hexg : N ∈ ((gs.map GArg.glob).map (·.shape)).filterMap (fun t => dimAt n t (n - q)) := by
    refine List.mem_filterMap.2 ⟨G.shape, List.mem_map.2 ⟨_, List.mem_map.2 ⟨_, hG, rfl⟩, rfl⟩, ?_⟩
    have h2 := hle _ hG
    have h3 := hGa.1
    show dimAt n G.shape (n - q) = some N
    unfold dimAt
    simp only [GArg.glob] at h2
    rw [if_pos (by omega)]
    have : n - q - (n - G.shape.length) = a := by omega
    rw [this, hGa.2]
  have hbl : bdim (((xs.map Arg.loc).map (·.shape)).filterMap (fun t => dimAt n t (n - q))) =
      some (blockLen N c.size c.rank) := (bdim_iff _ _).2 ⟨hdist, .inr hex⟩
  have hbg : bdim (((gs.map GArg.glob).map (·.shape)).filterMap (fun t => dimAt n t (n - q))) =
      some N := (bdim_iff _ _).2 ⟨hdistg, .inr hexg⟩
  rw [bcast_iff, hmx]
  constructor
  · rintro ⟨h1, h2⟩
    refine ⟨s.set (n - q) N, ?_, ?_, hq, by simpa [h1] using hqn, ?_⟩
    · rw [bcast_iff, hn]
      refine ⟨by simpa using h1, fun k hk => ?_⟩
      have hk' : k < s.length := by simpa using hk
      rw [List.getElem_set]
      by_cases hkq : n - q = k
      · subst hkq
        rw [if_pos rfl, hbg]
      · rw [if_neg hkq, ← hother k (by omega) (fun h => hkq h.symm)]
        exact h2 k hk'
    · simp only [List.length_set, h1]
      rw [List.getElem?_set_self (by omega)]
    · simp only [List.length_set, h1, List.set_set]
      have h3 := h2 (n - q) (by omega)
      rw [hbl] at h3
      rw [Option.some.inj h3]
      exact (List.set_getElem_self (by omega)).symm
  · rintro ⟨t, ht, htN, -, -, rfl⟩
    rw [bcast_iff, hn] at ht
    obtain ⟨h1, h2⟩ := ht
    refine ⟨by simpa using h1, fun k hk => ?_⟩
    have hk' : k < t.length := by simpa using hk
    rw [List.getElem_set]
    by_cases hkq : t.length - q = k
    · have hkn : k = n - q := by omega
      rw [if_pos hkq, hkn, hbl]
    · rw [if_neg hkq, hother k (by omega) (by omega)]
      exact h2 k hk'

theorem bidx_length (s i : List Nat) (h : s.length ≤ i.length) : (bidx s i).length = s.length := by
  unfold bidx
  rw [List.length_zipWith, List.length_drop]
  omega

theorem bidx_get (s i : List Nat) (h : s.length ≤ i.length) (k : Nat) (hk : k < s.length)
    (hk' : k < (bidx s i).length) :
    (bidx s i)[k] = if s[k] = 1 then 0 else i[i.length - s.length + k]'(by omega) := by
  simp only [bidx, List.getElem_zipWith, List.getElem_drop]

/-- The element of a block that is used at an index of the local result is the element of the global
array that is used at the corresponding index of the global result. -/
theorem bidx_shift (s i : List Nat) (a q N L st : Nat) (hs : s.length = a + q) (hq : 0 < q)
    (hN : s[a]? = some N) (hi : s.length ≤ i.length) (hiL : ∀ x, i[i.length - q]? = some x → x < L)
    (hst : st + L ≤ N) :
    (bidx (s.set a L) i).modify a (· + st) = bidx s (i.modify (i.length - q) (· + st)) := by
  obtain ⟨ha, hN⟩ := List.getElem?_eq_some_iff.1 hN
  apply List.ext_getElem
  · rw [List.length_modify, bidx_length _ _ (by simpa using hi), bidx_length _ _ (by simpa using hi)]
    simp
  · intro k h1 h2
    have hk : k < s.length := by rwa [bidx_length _ _ (by simpa using hi)] at h2
    rw [List.getElem_modify, bidx_get _ _ (by simpa using hi) k (by simpa using hk),
      bidx_get _ _ (by simpa using hi) k hk, List.getElem_set, List.getElem_modify]
    simp only [List.length_set, List.length_modify]
    by_cases hka : a = k
    · subst hka
      have e : i.length - s.length + a = i.length - q := by omega
      have hx := hiL i[i.length - q] (List.getElem?_eq_getElem (by omega))
      simp only [if_true, hN, e]
      by_cases hL1 : L = 1
      · rw [if_pos hL1]
        by_cases hN1 : N = 1
        · rw [if_pos hN1]; omega
        · rw [if_neg hN1]; omega
      · rw [if_neg hL1, if_neg (by omega)]
    · rw [if_neg hka, if_neg hka, if_neg (show ¬ i.length - q = i.length - s.length + k by omega)]

/-- For an array that does not have the distributed axis the shift makes no difference. -/
theorem bidx_fixed (s i : List Nat) (q st : Nat) (hs : s.length < q ∨ s[s.length - q]? = some 1)
    (hi : s.length ≤ i.length) (hqi : q ≤ i.length) :
    bidx s i = bidx s (i.modify (i.length - q) (· + st)) := by
  apply List.ext_getElem
  · rw [bidx_length _ _ hi, bidx_length _ _ (by simpa using hi)]
  · intro k h1 h2
    have hk : k < s.length := by rwa [bidx_length _ _ hi] at h1
    rw [bidx_get _ _ hi k hk, bidx_get _ _ (by simpa using hi) k hk, List.getElem_modify]
    simp only [List.length_modify]
    by_cases hd : s[k] = 1
    · rw [if_pos hd, if_pos hd]
    · rw [if_neg hd, if_neg hd, if_neg]
      intro he
      rcases hs with hs | hs
      · omega
      · have : s.length - q = k := by omega
        rw [this, List.getElem?_eq_getElem hk] at hs
        exact hd (Option.some.inj hs)

/-- The element that is used exists. -/
theorem bidx_inShape (ss : List (List Nat)) (s t i : List Nat) (hs : s ∈ ss) (h : bcast ss = some t)
    (hi : InShape i t) : InShape (bidx s i) s := by
  rw [bcast_iff] at h
  obtain ⟨h1, h2⟩ := h
  have hil := hi.length
  have hle := le_maxDim ss s hs
  apply inShape_of
  · exact bidx_length s i (by omega)
  · intro k h3 h4
    rw [bidx_get s i (by omega) k h4]
    by_cases hd : s[k] = 1
    · rw [if_pos hd, hd]; exact Nat.one_pos
    · rw [if_neg hd]
      obtain ⟨h5, h6⟩ := InShape.get hi (i.length - s.length + k) (by omega)
      have h7 := ((bdim_iff _ _).1 (h2 (i.length - s.length + k) (by omega))).1 s[k] (List.mem_filterMap.2
        ⟨s, hs, by
          unfold dimAt
          rw [if_pos (by omega)]
          have : i.length - s.length + k - (maxDim ss - s.length) = k := by omega
          rw [this, List.getElem?_eq_getElem h4]⟩)
      rcases h7 with h7 | h7
      · exact absurd h7 hd
      · rw [h7]; exact h6

/-! ### The checks -/

theorem commonComm_some {c : Comm} {gs : List (GArg α)} {xs : List (Arg α)}
    (h : List.Forall₂ (LocalOf c) gs xs) : commonComm xs (some c) = .ok (some c) := by
  induction h with
  | nil => rfl
  | cons h1 _ ih =>
    cases h1 with
    | num => exact ih
    | arr => exact ih
    | mpi G a A hA => unfold commonComm; rw [if_pos hA.comm.symm]; exact ih

theorem commonComm_none {c : Comm} {gs : List (GArg α)} {xs : List (Arg α)}
    (h : List.Forall₂ (LocalOf c) gs xs) (hm : HasMpi gs) : commonComm xs none = .ok (some c) := by
  induction h with
  | nil => obtain ⟨G, a, h⟩ := hm; cases h
  | cons h1 h2 ih =>
    cases h1 with
    | num =>
      obtain ⟨G, a, h⟩ := hm
      exact ih ⟨G, a, by simpa using h⟩
    | arr =>
      obtain ⟨G, a, h⟩ := hm
      exact ih ⟨G, a, by simpa using h⟩
    | mpi G a A hA => unfold commonComm; rw [hA.comm]; exact commonComm_some h2

theorem first_mpi {c : Comm} {gs : List (GArg α)} {xs : List (Arg α)}
    (h : List.Forall₂ (LocalOf c) gs xs) (hm : HasMpi gs) :
    ∃ G a A, GArg.mpi G a ∈ gs ∧ IsBlock G a c A ∧ xs.findSome? Arg.mpi? = some A := by
  induction h with
  | nil => obtain ⟨G, a, h⟩ := hm; cases h
  | cons h1 h2 ih =>
    cases h1 with
    | num =>
      obtain ⟨G, a, h⟩ := hm
      obtain ⟨G, a, A, h3, h4, h5⟩ := ih ⟨G, a, by simpa using h⟩
      exact ⟨G, a, A, List.mem_cons_of_mem _ h3, h4, h5⟩
    | arr =>
      obtain ⟨G, a, h⟩ := hm
      obtain ⟨G, a, A, h3, h4, h5⟩ := ih ⟨G, a, by simpa using h⟩
      exact ⟨G, a, A, List.mem_cons_of_mem _ h3, h4, h5⟩
    | mpi G a A hA => exact ⟨G, a, A, List.mem_cons_self .., hA, rfl⟩

theorem maxNdim_eq {c : Comm} {gs : List (GArg α)} {xs : List (Arg α)}
    (h : List.Forall₂ (LocalOf c) gs xs) (hm : HasMpi gs) :
    maxNdim xs = maxDim ((gs.map GArg.glob).map (·.shape)) := by
  rw [← maxDim_local h]
  obtain ⟨h1, h2, h3⟩ := foldl_max (xs.map Arg.ndim) (-1)
  obtain ⟨G, a, A, hG, hA, hf⟩ := first_mpi h hm
  obtain ⟨x, hx, hxA⟩ := List.exists_of_findSome?_eq_some hf
  have hx2 : x = .mpi A := by
    cases x <;> simp [Arg.mpi?] at hxA
    rw [hxA]
  subst hx2
  have h4 := h3 _ (List.mem_map.2 ⟨_, hx, rfl⟩)
  unfold maxNdim
  have hle : ∀ x ∈ xs, x.ndim ≤ x.loc.shape.length := by
    intro x _
    cases x <;> simp [Arg.ndim, Arg.loc]
  apply le_antisymm
  · rcases h1 with h1 | h1
    · rw [h1]; omega
    · obtain ⟨y, hy, hy2⟩ := List.mem_map.1 h1
      rw [← hy2]
      have := le_maxDim ((xs.map Arg.loc).map (·.shape)) y.loc.shape
        (List.mem_map.2 ⟨_, List.mem_map.2 ⟨y, hy, rfl⟩, rfl⟩)
      have := hle y hy
      omega
  · obtain ⟨h5, -, -⟩ := foldl_max (((xs.map Arg.loc).map (·.shape)).map List.length) 0
    unfold maxDim
    rcases h5 with h5 | h5
    · rw [h5]
      simp only [Arg.ndim] at h4
      omega
    · obtain ⟨s, hs, hs2⟩ := List.mem_map.1 h5
      obtain ⟨B, hB, rfl⟩ := List.mem_map.1 hs
      obtain ⟨y, hy, rfl⟩ := List.mem_map.1 hB
      rw [← hs2]
      obtain ⟨g, hg, hgy⟩ := mem_forall₂' h hy
      cases hgy with
      | num => simp only [Arg.loc, List.length_nil]; simp only [Arg.ndim] at h4; omega
      | arr B => exact h3 _ (List.mem_map.2 ⟨_, hy, rfl⟩)
      | mpi _ _ B _ => exact h3 _ (List.mem_map.2 ⟨_, hy, rfl⟩)

theorem block_get {G : NArr α} {a : Nat} {c : Comm} {A : MArr α} (h : IsBlock G a c A) :
    pyGet A.gshape a = .ok (G.shape.getD a 0) ∧
    pyGet A.loff a = .ok (blockStart (G.shape.getD a 0) c.size c.rank) ∧
    pyGet A.lshape a = .ok (blockLen (G.shape.getD a 0) c.size c.rank) := by
  have hlt := h.lt
  refine ⟨?_, ?_, ?_⟩
  · rw [h.gshape, pyGet_nat _ _ hlt, List.getD_eq_getElem _ _ hlt]
  · rw [h.loff, pyGet_nat _ _ (by simpa using hlt)]
    simp
  · rw [h.lshape, h.shape, pyGet_nat _ _ (by simpa using hlt)]
    simp

/-- The check of a distributed argument passes exactly if its distributed axis is where it is expected
and has the expected length. -/
theorem checkDist_iff {G : NArr α} {a : Nat} {c : Comm} {A : MArr α} (h : IsBlock G a c A) (axis : Int)
    (N : Nat) :
    checkDist A axis N (blockStart N c.size c.rank) none = .ok () ↔
      axis = a ∧ G.shape.getD a 0 = N := by
  obtain ⟨h1, h2, -⟩ := block_get h
  unfold checkDist
  rw [if_neg (by simp), h.axis]
  by_cases ha : (a : Int) = axis
  · rw [if_neg (by simpa using ha), ← ha, h1, h2]
    simp only [bind, Except.bind]
    by_cases hN : G.shape.getD a 0 = N
    · rw [if_neg (by simpa using hN), if_neg (by rw [hN]; simp)]
      simp only [hN, pure, Except.pure, and_self]
    · rw [if_pos hN]
      simp only [reduceCtorEq, false_iff, not_and]
      exact fun _ => hN
  · rw [if_pos ha]
    simp only [reduceCtorEq, false_iff, not_and]
    exact fun h => absurd h.symm ha

theorem checkDist_comm {A : MArr α} (axis : Int) (N off : Nat) (c : Comm) (h : A.comm = c) :
    checkDist A axis N off (some c) = checkDist A axis N off none := by
  unfold checkDist
  simp only [h, ne_eq, reduceCtorEq, not_false_eq_true, not_true_eq_false, and_false, false_and, if_false]

/-- The check of one argument, when the distributed axis is the `q`-th from the end with length `N`. -/
theorem checkArg_iff {c : Comm} {g : GArg α} {x : Arg α} (h : LocalOf c g x) (n q N : Nat) (hq : 0 < q)
    (hqn : q ≤ n)
    (hw : ∀ A, g = .arr A → A.shape[A.shape.length - q]? = some (blockLen N c.size c.rank) →
      q ≤ A.shape.length → blockLen N c.size c.rank = 1) :
    checkArg (n - q : Nat) n N (blockStart N c.size c.rank) (blockLen N c.size c.rank) x = .ok () ↔
      AlignedArg N q g := by
  cases h with
  | num => simp [checkArg, AlignedArg]
  | arr A =>
    unfold checkArg AlignedArg
    simp only
    by_cases hc : (0 : Int) ≤ ((n - q : Nat) : Int) - n + A.shape.length
    · rw [if_pos hc]
      have e : ((n - q : Nat) : Int) - n + A.shape.length = ((A.shape.length - q : Nat) : Int) := by omega
      rw [e, pyGet_nat _ _ (by omega)]
      simp only [bind, Except.bind]
      have hlt : A.shape.length - q < A.shape.length := by omega
      rw [List.getElem?_eq_getElem hlt]
      by_cases h1 : A.shape[A.shape.length - q] = 1
      · rw [if_pos h1]
        simp [pure, Except.pure, h1]
      · rw [if_neg h1, if_neg]
        · simp only [reduceCtorEq, Option.some.injEq, false_iff, not_or]
          exact ⟨by omega, h1⟩
        · intro h2
          have := hw A rfl (by rw [List.getElem?_eq_getElem hlt, h2]) (by omega)
          omega
    · rw [if_neg hc]
      simp only [true_iff]
      left
      omega
  | mpi G a A hA =>
    unfold checkArg AlignedArg
    simp only
    have hAl : A.arr.shape.length = G.shape.length := by rw [hA.shape]; simp
    have hlt := hA.lt
    have key := checkDist_iff hA (((n - q : Nat) : Int) - n + A.arr.shape.length) N
    have h2 : (G.shape.length = a + q ∧ G.shape[a]? = some N) ↔
        (((n - q : Nat) : Int) - n + A.arr.shape.length = a ∧ G.shape.getD a 0 = N) := by
      rw [List.getElem?_eq_getElem hlt, List.getD_eq_getElem _ _ hlt, hAl]
      simp only [Option.some.injEq]
      constructor
      · rintro ⟨h3, h4⟩; exact ⟨by omega, h4⟩
      · rintro ⟨h3, h4⟩; exact ⟨by omega, h4⟩
    rw [h2, ← key]
    cases hch : checkDist A (((n - q : Nat) : Int) - n + A.arr.shape.length) N
        (blockStart N c.size c.rank) none with
    | error e => simp
    | ok u => simp

theorem forM_ok {f : β → Except PyErr Unit} (l : List β) :
    l.forM f = .ok () ↔ ∀ x ∈ l, f x = .ok () := by
  induction l with
  | nil => simp [pure, Except.pure]
  | cons x l ih =>
    show (f x >>= fun _ => l.forM f) = _ ↔ _
    cases h : f x with
    | error e => simp [bind, Except.bind, h]
    | ok u =>
      simp only [bind, Except.bind, List.forall_mem_cons, h, true_and]
      exact ih

/-- What the call does before it looks at `out`, under the documented restriction. -/
theorem inferCall_ok {c : Comm} {gs : List (GArg α)} {xs : List (Arg α)} (h : List.Forall₂ (LocalOf c) gs xs)
    (N q : Nat) (hal : Aligned N q gs) (hm : HasMpi gs) :
    inferCall xs = .ok (((maxDim ((gs.map GArg.glob).map (·.shape)) - q : Nat) : Int), N,
      blockStart N c.size c.rank) := by
  obtain ⟨G, a, A, hG, hA, hf⟩ := first_mpi h hm
  have hGa : AlignedArg N q (.mpi G a) := hal _ hG
  have hN : G.shape.getD a 0 = N := by rw [List.getD_eq_getElem?_getD, hGa.2]; rfl
  have hq := hGa.pos
  have hAl : A.arr.shape.length = G.shape.length := by rw [hA.shape]; simp
  obtain ⟨e1, e2, e3⟩ := block_get hA
  rw [hN] at e1 e2 e3
  have hle := le_maxDim ((gs.map GArg.glob).map (·.shape)) G.shape
    (List.mem_map.2 ⟨_, List.mem_map.2 ⟨_, hG, rfl⟩, rfl⟩)
  have hGl := hGa.1
  unfold inferCall
  rw [hf]
  simp only
  rw [maxNdim_eq h hm, hA.axis, e1, e2, e3]
  generalize maxDim ((gs.map GArg.glob).map (·.shape)) = n at *
  have e : (n : Int) + a - A.arr.shape.length = ((n - q : Nat) : Int) := by omega
  simp only [bind, Except.bind, e]
  have hall : xs.forM (checkArg ((n - q : Nat) : Int) n N (blockStart N c.size c.rank)
      (blockLen N c.size c.rank)) = .ok () := by
    rw [forM_ok]
    intro x hx
    obtain ⟨g, hg, hgx⟩ := mem_forall₂' h hx
    by_cases hw : ∀ A, g = .arr A → A.shape[A.shape.length - q]? = some (blockLen N c.size c.rank) →
      q ≤ A.shape.length → blockLen N c.size c.rank = 1
    · exact (checkArg_iff hgx n q N hq (by omega) hw).2 (hal g hg)
    · exfalso
      apply hw
      rintro B rfl h1 h2
      rcases hal _ hg with h3 | h3
      · omega
      · rw [h1] at h3; exact Option.some.inj h3
  rw [hall]
  rfl

/-- The local result of `numpy` is the block of the global result. -/
theorem npCall_block {c : Comm} {gs : List (GArg α)} {xs : List (Arg α)} (f : List α → α)
    (h : List.Forall₂ (LocalOf c) gs xs) (N q : Nat) (hal : Aligned N q gs) (hm : HasMpi gs) (hr : c.rank < c.size)
    (R : NArr α) (hR : npCall f (gs.map GArg.glob) = .ok R) :
    ∃ B, npCall f (xs.map Arg.loc) = .ok B ∧ 0 < q ∧ q ≤ R.shape.length ∧ R.shape[R.shape.length - q]? = some N ∧
      R.shape.length = maxDim ((gs.map GArg.glob).map (·.shape)) ∧
      B.shape = R.shape.set (R.shape.length - q) (blockLen N c.size c.rank) ∧
      (∀ i, InShape i B.shape →
        B.val i = R.val (i.modify (R.shape.length - q) (· + blockStart N c.size c.rank))) := by
  unfold npCall at hR
  cases hb : bcast ((gs.map GArg.glob).map (·.shape)) with
  | none => rw [hb] at hR; simp at hR
  | some t =>
    rw [hb] at hR
    have hR := Except.ok.inj hR
    subst hR
    obtain ⟨G, a, hG⟩ := hm
    have hq := AlignedArg.pos (hal _ hG)
    have hGl := (hal _ hG).1
    have htl := ((bcast_iff _ _).1 hb).1
    have hle : ∀ g ∈ gs, g.glob.shape.length ≤ t.length := by
      intro g hg
      rw [htl]
      exact le_maxDim _ _ (List.mem_map.2 ⟨_, List.mem_map.2 ⟨g, hg, rfl⟩, rfl⟩)
    have hqt : q ≤ t.length := by
      have := hle _ hG
      simp only [GArg.glob] at this
      omega
    have htN : t[t.length - q]? = some N := by
      have h1 := ((bcast_iff _ _).1 hb).2 (t.length - q) (by omega)
      rw [← htl] at h1
      rw [List.getElem?_eq_getElem (by omega), ← h1, bdim_iff]
      constructor
      · intro d hd
        obtain ⟨s, hs, hsd⟩ := List.mem_filterMap.1 hd
        obtain ⟨A0, hA0, rfl⟩ := List.mem_map.1 hs
        obtain ⟨g, hg, rfl⟩ := List.mem_map.1 hA0
        have h2 := hal g hg
        have h3 := hle g hg
        cases g with
        | num => simp [GArg.glob, dimAt] at hsd
        | arr A =>
          left
          replace hsd : dimAt t.length A.shape (t.length - q) = some d := hsd
          unfold dimAt at hsd
          simp only [GArg.glob, AlignedArg] at h2 h3
          by_cases hc : t.length - A.shape.length ≤ t.length - q
          · rw [if_pos hc] at hsd
            rcases h2 with h2 | h2
            · omega
            · have : t.length - q - (t.length - A.shape.length) = A.shape.length - q := by omega
              rw [this, h2] at hsd
              exact (Option.some.inj hsd).symm
          · rw [if_neg hc] at hsd
            simp at hsd
        | mpi G a =>
          right
          replace hsd : dimAt t.length G.shape (t.length - q) = some d := hsd
          unfold dimAt at hsd
          simp only [GArg.glob] at h3
          have h4 := h2.1
          rw [if_pos (by omega)] at hsd
          have : t.length - q - (t.length - G.shape.length) = a := by omega
          rw [this, h2.2] at hsd
          exact (Option.some.inj hsd).symm
      · right
        refine List.mem_filterMap.2 ⟨G.shape, List.mem_map.2 ⟨_, List.mem_map.2 ⟨_, hG, rfl⟩, rfl⟩, ?_⟩
        show dimAt t.length G.shape (t.length - q) = some N
        have h3 := hle _ hG
        simp only [GArg.glob] at h3
        unfold dimAt
        rw [if_pos (by omega)]
        have : t.length - q - (t.length - G.shape.length) = a := by omega
        rw [this, (hal _ hG).2]
    have hloc := (bcast_local h N q hal ⟨G, a, hG⟩ _).2 ⟨t, hb, htN, hq, hqt, rfl⟩
    refine ⟨_, by unfold npCall; rw [hloc], hq, hqt, htN, htl, rfl, ?_⟩
    intro i hi
    simp only at hi ⊢
    have hil : i.length = t.length := by rw [hi.length]; simp
    have hiL : ∀ x, i[i.length - q]? = some x → x < blockLen N c.size c.rank := by
      intro x hx
      obtain ⟨h1, h2⟩ := InShape.get hi (t.length - q) (by simp; omega)
      rw [hil, List.getElem?_eq_getElem h1] at hx
      rw [← Option.some.inj hx]
      simpa using h2
    have hst := Mpi.block_le N c.size hr
    congr 1
    rw [List.map_map, List.map_map]
    have hev : ∀ g ∈ gs, ∀ x ∈ xs, LocalOf c g x → x.loc.val (bidx x.loc.shape i) =
        g.glob.val (bidx g.glob.shape (i.modify (t.length - q) (· + blockStart N c.size c.rank))) := by
      intro g hg x hx hgx
      have h1 := hle g hg
      have h2 := hal g hg
      have h3 := bidx_inShape _ x.loc.shape _ i (List.mem_map.2 ⟨_, List.mem_map.2 ⟨x, hx, rfl⟩, rfl⟩) hloc hi
      cases hgx with
      | num => rfl
      | arr A =>
        simp only [GArg.glob, Arg.loc] at h1 ⊢
        rw [bidx_fixed A.shape i q (blockStart N c.size c.rank) h2 (by omega) (by omega), hil]
      | mpi G a A hA =>
        simp only [GArg.glob, Arg.loc] at h1 h3 ⊢
        have hN : G.shape.getD a 0 = N := by rw [List.getD_eq_getElem?_getD, h2.2]; rfl
        rw [hA.elems _ h3, hA.shape, hN]
        rw [bidx_shift G.shape i a q N _ _ h2.1 hq h2.2 (by omega) hiL hst, hil]
    clear hloc hle htN hb hal hG hR htl
    revert hev
    induction h with
    | nil => intro _; rfl
    | cons h1 _ ih =>
      intro hev
      simp only [List.map_cons, Function.comp]
      rw [hev _ (List.mem_cons_self ..) _ (List.mem_cons_self ..) h1]
      congr 1
      exact ih fun g hg x hx => hev g (List.mem_cons_of_mem _ hg) x (List.mem_cons_of_mem _ hx)

end Verif.Dist
