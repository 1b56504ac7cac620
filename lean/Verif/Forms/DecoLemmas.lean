import Verif.Forms.DecoSpec
import Mathlib.Tactic.Tauto

namespace Verif.Deco

variable {α β : Type}

theorem mem_indices (s i : List Nat) : i ∈ indices s ↔ Inside i s := by
  unfold Inside
  induction s generalizing i with
  | nil => simp [indices]
  | cons n s ih =>
    rw [indices]
    simp only [List.mem_flatMap, List.mem_range, List.mem_map]
    constructor
    · rintro ⟨x, hx, j, hj, rfl⟩
      exact .cons hx ((ih j).1 hj)
    · intro h
      cases h with
      | cons h1 h2 => exact ⟨_, h1, _, (ih _).2 h2, rfl⟩

/-- The condition on two shapes, last axis first. -/
theorem bshape2_some (s t r : List Nat) : bshape2 s t = some r ↔
    s.length ≤ r.length ∧ t.length ≤ r.length ∧
    ∀ (k d : Nat), r[k]? = some d → (∀ e, s[k]? = some e → e = 1 ∨ e = d) ∧ (∀ e, t[k]? = some e → e = 1 ∨ e = d) ∧ (s[k]? = some d ∨ t[k]? = some d) := by
  fun_induction bshape2 s t generalizing r with
  | case1 t =>
    constructor
    · intro h
      cases h
      exact ⟨by simp, by simp, fun k d h => ⟨by simp, fun e h' => by rw [h] at h'; cases h'; exact .inr rfl, .inr h⟩⟩
    · rintro ⟨-, h2, h⟩
      congr 1
      apply List.ext_getElem?
      intro k
      cases hr : r[k]? with
      | none =>
        rw [List.getElem?_eq_none_iff] at hr ⊢
        omega
      | some d => simpa using (h k d hr).2.2
  | case2 s hs =>
    constructor
    · intro h
      cases h
      exact ⟨by simp, by simp, fun k d h => ⟨fun e h' => by rw [h] at h'; cases h'; exact .inr rfl, by simp, .inl h⟩⟩
    · rintro ⟨h1, -, h⟩
      congr 1
      apply List.ext_getElem?
      intro k
      cases hr : r[k]? with
      | none =>
        rw [List.getElem?_eq_none_iff] at hr ⊢
        omega
      | some d => simpa using (h k d hr).2.2
  | case3 a s b t d q hq hd ih =>
    cases r with
    | nil => simp
    | cons c r =>
      have key : (bdim a b = some c) ↔ (a = 1 ∨ a = c) ∧ (b = 1 ∨ b = c) ∧ (a = c ∨ b = c) := by
        unfold bdim
        split
        · simp only [Option.some.injEq]; omega
        · split
          · simp only [Option.some.injEq]; omega
          · split
            · simp only [Option.some.injEq]; omega
            · simp only [reduceCtorEq, false_iff]; omega
      have e : some (d :: q) = some (c :: r) ↔ bdim a b = some c ∧ bshape2 s t = some r := by
        rw [hd, hq]
        simp
      rw [e, key, ih r]
      constructor
      · rintro ⟨⟨h1, h2, h3⟩, h4, h5, h6⟩
        refine ⟨by simpa using h4, by simpa using h5, fun k d h => ?_⟩
        cases k with
        | zero =>
          simp only [List.getElem?_cons_zero, Option.some.injEq, forall_eq'] at h ⊢
          subst h
          exact ⟨h1, h2, h3⟩
        | succ k => simpa using h6 k d (by simpa using h)
      · rintro ⟨h4, h5, h6⟩
        refine ⟨by simpa using h6 0 c rfl, by simpa using h4, by simpa using h5, fun k d h => ?_⟩
        simpa using h6 (k + 1) d (by simpa using h)
  | case4 a s b t hne ih =>
    constructor
    · intro h; cases h
    · intro h
      exfalso
      cases r with
      | nil => simp at h
      | cons c r =>
        have h0 := h.2.2 0 c rfl
        simp only [List.getElem?_cons_zero, Option.some.injEq, forall_eq'] at h0
        have hb : bdim a b = some c := by
          unfold bdim
          split
          · simp only [Option.some.injEq]; omega
          · split
            · simp only [Option.some.injEq]; omega
            · split
              · simp only [Option.some.injEq]; omega
              · omega
        have hs : bshape2 s t = some r := (ih r).2
          ⟨by simpa using h.1, by simpa using h.2.1, fun k d hk => by simpa using h.2.2 (k + 1) d (by simpa using hk)⟩
        exact hne c r hb hs

theorem bshapeR_some (l : List (List Nat)) (r : List Nat) : bshapeR l = some r ↔
    (∀ s ∈ l, s.length ≤ r.length) ∧
    ∀ (k d : Nat), r[k]? = some d → (∀ s ∈ l, ∀ e, s[k]? = some e → e = 1 ∨ e = d) ∧ ∃ s ∈ l, s[k]? = some d := by
  induction l generalizing r with
  | nil =>
    rw [bshapeR]
    constructor
    · intro h
      cases h
      exact ⟨by simp, by simp⟩
    · rintro ⟨-, h⟩
      cases r with
      | nil => rfl
      | cons c r => simpa using h 0 c rfl
  | cons s l ih =>
    rw [bshapeR]
    constructor
    · intro h
      cases ht : bshapeR l with
      | none => rw [ht] at h; cases h
      | some t =>
        rw [ht] at h
        obtain ⟨h1, h2, h3⟩ := (bshape2_some s t r).1 h
        obtain ⟨g1, g2⟩ := (ih t).1 ht
        refine ⟨fun x hx => ?_, fun k d hk => ?_⟩
        · rcases List.mem_cons.1 hx with rfl | hx
          · exact h1
          · exact Nat.le_trans (g1 x hx) h2
        · obtain ⟨a1, a2, a3⟩ := h3 k d hk
          refine ⟨fun x hx e he => ?_, ?_⟩
          · rcases List.mem_cons.1 hx with rfl | hx
            · exact a1 e he
            · have hlt : k < t.length := by
                have := (List.getElem?_eq_some_iff.1 he).1
                have := g1 x hx
                omega
              have hkt : t[k]? = some t[k] := List.getElem?_eq_getElem hlt
              rcases (g2 k _ hkt).1 x hx e he with h | h
              · exact .inl h
              · rw [h]
                exact a2 _ hkt
          · rcases a3 with a3 | a3
            · exact ⟨s, by simp, a3⟩
            · obtain ⟨x, hx, hx'⟩ := (g2 k d a3).2
              exact ⟨x, by simp [hx], hx'⟩
    · rintro ⟨h1, h2⟩
      -- the shape of the rest
      have hrest : ∃ t, bshapeR l = some t := by
        suffices ∃ t : List Nat, (∀ s ∈ l, s.length ≤ t.length) ∧
            ∀ (k d : Nat), t[k]? = some d → (∀ s ∈ l, ∀ e, s[k]? = some e → e = 1 ∨ e = d) ∧ ∃ s ∈ l, s[k]? = some d by
          obtain ⟨t, ht⟩ := this
          exact ⟨t, (ih t).2 ht⟩
        clear ih
        -- along each axis: the length of the result if some of the rest has it, and one otherwise
        obtain ⟨n, hn1, hn2⟩ : ∃ n, (∀ s ∈ l, s.length ≤ n) ∧ ∀ k < n, ∃ s ∈ l, k < s.length := by
          clear h1 h2
          induction l with
          | nil => exact ⟨0, by simp, by simp⟩
          | cons x l ihl =>
            obtain ⟨n, a1, a2⟩ := ihl
            refine ⟨max x.length n, fun s hs => ?_, fun k hk => ?_⟩
            · rcases List.mem_cons.1 hs with rfl | hs
              · omega
              · have := a1 s hs; omega
            · by_cases hkx : k < x.length
              · exact ⟨x, by simp, hkx⟩
              · obtain ⟨s, hs, hs'⟩ := a2 k (by omega)
                exact ⟨s, by simp [hs], hs'⟩
        have hnr : n ≤ r.length := by
          by_contra hc
          obtain ⟨s, hs, hs'⟩ := hn2 r.length (by omega)
          have := h1 s (by simp [hs])
          omega
        classical
        refine ⟨(List.range n).map fun k => if ∃ s ∈ l, s[k]? = r[k]? then (r[k]?).getD 1 else 1, by simpa using hn1, fun k d hk => ?_⟩
        rw [List.getElem?_map] at hk
        have hkn : k < n := by
          by_contra hc
          rw [List.getElem?_eq_none (by simp; omega)] at hk
          cases hk
        rw [List.getElem?_range hkn] at hk
        simp only [Option.map_some, Option.some.injEq] at hk
        have hrk : r[k]? = some r[k] := List.getElem?_eq_getElem (by omega)
        obtain ⟨b1, -⟩ := h2 k _ hrk
        rw [hrk] at hk
        by_cases hex : ∃ s ∈ l, s[k]? = some r[k]
        · rw [if_pos hex] at hk
          simp only [Option.getD_some] at hk
          rw [← hk]
          exact ⟨fun s hs => b1 s (by simp [hs]), hex⟩
        · rw [if_neg hex] at hk
          subst hk
          have hall : ∀ s ∈ l, ∀ e, s[k]? = some e → e = 1 := by
            intro s hs e he
            rcases b1 s (by simp [hs]) e he with h | h
            · exact h
            · exact absurd ⟨s, hs, h ▸ he⟩ hex
          refine ⟨fun s hs e he => .inl (hall s hs e he), ?_⟩
          obtain ⟨s, hs, hs'⟩ := hn2 k hkn
          have hsk : s[k]? = some s[k] := List.getElem?_eq_getElem hs'
          exact ⟨s, hs, by rw [hsk, hall s hs _ hsk]⟩
      obtain ⟨t, ht⟩ := hrest
      rw [ht]
      obtain ⟨g1, g2⟩ := (ih t).1 ht
      refine (bshape2_some s t r).2 ⟨h1 s (by simp), ?_, fun k d hk => ?_⟩
      · by_contra hc
        have hkt : t[r.length]? = some t[r.length] := List.getElem?_eq_getElem (by omega)
        obtain ⟨x, hx, hx'⟩ := (g2 _ _ hkt).2
        have := (List.getElem?_eq_some_iff.1 hx').1
        have := h1 x (by simp [hx])
        omega
      · obtain ⟨b1, x, hx, hx'⟩ := h2 k d hk
        refine ⟨b1 s (by simp), fun e he => ?_, ?_⟩
        · obtain ⟨y, hy, hy'⟩ := (g2 k e he).2
          exact b1 y (by simp [hy]) e hy'
        · rcases List.mem_cons.1 hx with rfl | hx
          · exact .inl hx'
          · have hlt : k < t.length := by
              have := (List.getElem?_eq_some_iff.1 hx').1
              have := g1 x hx
              omega
            have hkt : t[k]? = some t[k] := List.getElem?_eq_getElem hlt
            obtain ⟨c1, y, hy, hy'⟩ := g2 k _ hkt
            rcases c1 x hx d hx' with h | h
            · rcases b1 y (by simp [hy]) _ hy' with h' | h'
              · exact .inr (by rw [hkt, h', h])
              · exact .inr (by rw [hkt, h'])
            · exact .inr (by rw [hkt, h])

theorem bshape_some (l : List (List Nat)) (t : List Nat) : bshape l = some t ↔ Broadcast l t := by
  unfold bshape
  have h : (bshapeR (l.map List.reverse)).map List.reverse = some t ↔ bshapeR (l.map List.reverse) = some t.reverse := by
    constructor
    · intro h
      obtain ⟨x, hx, rfl⟩ := Option.map_eq_some_iff.1 h
      rw [hx, List.reverse_reverse]
    · intro h
      rw [h, Option.map_some, List.reverse_reverse]
  rw [h, bshapeR_some]
  unfold Broadcast axis
  simp only [List.mem_map, exists_exists_and_eq_and, forall_exists_index, and_imp, forall_apply_eq_imp_iff₂, List.length_reverse]

theorem axis_sub (s i : List Nat) (h : s.length ≤ i.length) : Goes s i (sub s i) := by
  unfold Goes sub axis
  have hl : (List.zipWith (fun d x => if d = 1 then 0 else x) s (i.drop (i.length - s.length))).length = s.length := by simp; omega
  refine ⟨hl, fun k hk => ?_⟩
  have h1 : k < (List.zipWith (fun d x => if d = 1 then 0 else x) s (i.drop (i.length - s.length))).reverse.length := by
    rw [List.length_reverse, hl]; exact hk
  rw [List.getElem?_eq_getElem h1, List.getElem?_eq_getElem (by simpa using hk), List.getElem?_eq_getElem (by simp; omega)]
  simp only [List.getElem_reverse, List.getElem_zipWith, List.getElem_drop, hl, Option.some.injEq]
  have e : i.length - s.length + (s.length - 1 - k) = i.length - 1 - k := by omega
  simp only [e]
  split <;> rfl

theorem inside_axis (i s : List Nat) : Inside i s ↔ i.length = s.length ∧ ∀ k x e, axis i k = some x → axis s k = some e → x < e := by
  unfold Inside axis
  rw [← List.forall₂_reverse_iff, List.forall₂_iff_get]
  constructor
  · rintro ⟨h1, h2⟩
    refine ⟨by simpa using h1, fun k x e hx he => ?_⟩
    obtain ⟨a, ha⟩ := List.getElem?_eq_some_iff.1 hx
    obtain ⟨b, hb⟩ := List.getElem?_eq_some_iff.1 he
    have := h2 k a b
    simp only [List.get_eq_getElem] at this
    omega
  · rintro ⟨h1, h2⟩
    refine ⟨by simpa using h1, fun k a b => ?_⟩
    exact h2 k _ _ (List.getElem?_eq_getElem a) (List.getElem?_eq_getElem b)

/-- The indices into an argument are inside it. -/
theorem inside_sub (l : List (List Nat)) (t s i : List Nat) (hb : Broadcast l t) (hs : s ∈ l) (hi : Inside i t) : Inside (sub s i) s := by
  rw [inside_axis] at hi ⊢
  have hg := axis_sub s i (by rw [hi.1]; exact hb.1 s hs)
  refine ⟨hg.1, fun k x e hx he => ?_⟩
  have hk : k < s.length := by
    have := (List.getElem?_eq_some_iff.1 he).1
    simpa using this
  rw [hg.2 k hk, he] at hx
  by_cases h1 : e = 1
  · rw [if_pos (by rw [h1])] at hx
    cases hx
    omega
  · rw [if_neg (by simpa using h1)] at hx
    have hkt : k < t.reverse.length := by
      have := hb.1 s hs
      simp
      omega
    have ht : axis t k = some t.reverse[k] := List.getElem?_eq_getElem hkt
    have := hi.2 k x _ hx ht
    rcases (hb.2 k _ ht).1 s hs e he with h | h
    · exact absurd h h1
    · omega

theorem goes_unique (s i j j' : List Nat) (h : Goes s i j) (h' : Goes s i j') : j = j' := by
  apply List.reverse_injective
  apply List.ext_getElem?
  intro k
  by_cases hk : k < s.length
  · exact (h.2 k hk).trans (h'.2 k hk).symm
  · rw [List.getElem?_eq_none (by simp [h.1]; omega), List.getElem?_eq_none (by simp [h'.1]; omega)]

theorem eachOf_ok {ι : Type} (f : ι → Except PyErr β) (l : List ι) (r : List β) :
    eachOf f l = .ok r ↔ List.Forall₂ (fun x y => f x = .ok y) l r := by
  induction l generalizing r with
  | nil =>
    rw [eachOf]
    constructor
    · intro h; cases h; exact .nil
    · intro h; cases h; rfl
  | cons x l ih =>
    rw [eachOf]
    cases hf : f x with
    | error e =>
      simp only
      constructor
      · intro h; cases h
      · intro h
        cases h with
        | cons h1 h2 => rw [hf] at h1; cases h1
    | ok y =>
      simp only
      constructor
      · intro h
        split at h
        · cases h
        · rename_i r' hr
          cases h
          exact .cons hf ((ih r').1 hr)
      · intro h
        cases h with
        | cons h1 h2 =>
          rw [hf] at h1
          cases h1
          rw [(ih _).2 h2]

theorem eachOf_error {ι : Type} (f : ι → Except PyErr β) (l : List ι) (e : PyErr) :
    eachOf f l = .error e ↔ ∃ pre x post, l = pre ++ x :: post ∧ (∀ z ∈ pre, ∃ y, f z = .ok y) ∧ f x = .error e := by
  induction l with
  | nil => simp [eachOf]
  | cons x l ih =>
    rw [eachOf]
    cases hf : f x with
    | error e' =>
      simp only [Except.error.injEq]
      constructor
      · rintro rfl
        exact ⟨[], x, l, rfl, by simp, hf⟩
      · rintro ⟨pre, z, post, h1, h2, h3⟩
        cases pre with
        | nil => cases h1; rw [hf] at h3; cases h3; rfl
        | cons p pre =>
          cases h1
          obtain ⟨y, hy⟩ := h2 x (by simp)
          rw [hf] at hy
          cases hy
    | ok y =>
      simp only
      refine Iff.trans (b := eachOf f l = .error e) (by cases eachOf f l <;> simp) ?_
      rw [ih]
      constructor
      · rintro ⟨pre, z, post, h1, h2, h3⟩
        exact ⟨x :: pre, z, post, by rw [h1]; rfl, fun w hw => by
          rcases List.mem_cons.1 hw with rfl | hw
          · exact ⟨y, hf⟩
          · exact h2 w hw, h3⟩
      · rintro ⟨pre, z, post, h1, h2, h3⟩
        cases pre with
        | nil => cases h1; rw [hf] at h3; cases h3
        | cons p pre =>
          cases h1
          exact ⟨pre, z, post, rfl, fun w hw => h2 w (by simp [hw]), h3⟩

/-- The elements of the arguments that go with an index. -/
theorem picked (f : List α → Except PyErr β) (args : List (Arr α)) (t i : List Nat) (r : Except PyErr β) (hb : Broadcast (args.map (·.shape)) t)
    (hi : Inside i t) :
    f (args.map fun a => a.get (sub a.shape i)) = r ↔
      ∃ js, List.Forall₂ (fun (a : Arr α) j => Goes a.shape i j ∧ Inside j a.shape) args js ∧
        f (List.zipWith (fun a j => a.get j) args js) = r := by
  have hlen : ∀ a ∈ args, a.shape.length ≤ i.length := by
    intro a ha
    rw [((inside_axis i t).1 hi).1]
    exact hb.1 _ (List.mem_map_of_mem (f := (·.shape)) ha)
  have hz : ∀ js, List.Forall₂ (fun (a : Arr α) j => Goes a.shape i j ∧ Inside j a.shape) args js →
      List.zipWith (fun a j => a.get j) args js = args.map fun a => a.get (sub a.shape i) := by
    intro js hjs
    clear hb
    induction hjs with
    | nil => rfl
    | @cons a j args js h1 h2 ih =>
      rw [List.zipWith_cons_cons, List.map_cons, ih fun a ha => hlen a (by simp [ha]),
        goes_unique _ _ _ _ h1.1 (axis_sub a.shape i (hlen a (by simp)))]
  constructor
  · intro h
    refine ⟨args.map fun a => sub a.shape i, ?_, ?_⟩
    · rw [List.forall₂_map_right_iff, List.forall₂_same]
      intro a ha
      exact ⟨axis_sub _ _ (hlen a ha), inside_sub _ t _ _ hb (List.mem_map_of_mem (f := (·.shape)) ha) hi⟩
    · rw [← h]
      congr 1
      rw [List.zipWith_map_right]
      clear hz hlen hb h
      induction args with
      | nil => rfl
      | cons a l ih => rw [List.zipWith_cons_cons, List.map_cons, ih]
  · rintro ⟨js, hjs, h⟩
    rw [hz js hjs] at h
    exact h

theorem ufunc_ok (f : List α → Except PyErr β) (args : List (Arr α)) (o : Out β) : ufunc f args = .ok o ↔ Elementwise f args o := by
  unfold ufunc Elementwise
  cases hb : bshape (args.map (·.shape)) with
  | none =>
    simp only
    constructor
    · intro h; cases h
    · rintro ⟨h, -⟩
      rw [← bshape_some, hb] at h
      cases h
  | some t =>
    have hb' := (bshape_some _ _).1 hb
    have key : ∀ r, eachOf (fun i => f (args.map fun a => a.get (sub a.shape i))) (indices t) = .ok r ↔
        List.Forall₂ (fun i y => ∃ js, List.Forall₂ (fun (a : Arr α) j => Goes a.shape i j ∧ Inside j a.shape) args js ∧
          f (List.zipWith (fun a j => a.get j) args js) = .ok y) (indices t) r := by
      intro r
      rw [eachOf_ok]
      have hm : ∀ i ∈ indices t, Inside i t := fun i hi => (mem_indices t i).1 hi
      generalize indices t = is at hm
      induction is generalizing r with
      | nil => simp
      | cons i is ih =>
        cases r with
        | nil => simp
        | cons y r =>
          have ih' := ih r fun i hi => hm i (List.mem_cons_of_mem _ hi)
          rw [List.forall₂_cons, List.forall₂_cons]
          exact and_congr (picked f args t i (.ok y) hb' (hm i (by simp))) ih'
    simp only
    constructor
    · intro h
      split at h
      · cases h
      · rename_i r hr
        cases h
        exact ⟨hb', (key r).1 hr⟩
    · rintro ⟨h1, h2⟩
      have : o.shape = t := by
        rw [← bshape_some, hb] at h1
        cases h1
        rfl
      rw [this] at h2
      rw [(key o.data).2 h2, ← this]

end Verif.Deco
