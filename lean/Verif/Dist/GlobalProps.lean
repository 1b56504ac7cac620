import Verif.Dist.GlobalLemmas

/-!
# C08 for arrays with any number of axes
-/
namespace Verif.Dist

open Verif.Mpi (blockStart blockLen)
open Verif.Reshape (InShape)

variable {α : Type}

/-- The shapes of the global array and of the block, with the distributed axis singled out. -/
theorem block_shapes (G : NArr α) (a : Nat) (c : Comm) (A : MArr α) (hA : IsBlock G a c A) :
    ∃ s1 N s2, G.shape = s1 ++ N :: s2 ∧ s1.length = a ∧ G.shape.getD a 0 = N ∧
      A.arr.shape = s1 ++ blockLen N c.size c.rank :: s2 := by
  have hlt := hA.lt
  obtain ⟨s1, N, s2, hG, hs1⟩ : ∃ s1 N s2, G.shape = s1 ++ N :: s2 ∧ s1.length = a := by
    refine ⟨G.shape.take a, G.shape[a], G.shape.drop (a + 1), ?_, by simp; omega⟩
    rw [List.getElem_cons_drop, List.take_append_drop]
  have hN : G.shape.getD a 0 = N := by
    rw [List.getD_eq_getElem?_getD, hG, ← hs1]; simp
  exact ⟨s1, N, s2, hG, hs1, hN, by rw [hA.shape, hN, hG, ← hs1]; simp⟩

/-- What `global_slice` does with an index that has no new axes. -/
theorem globalGetitem_eq (G : NArr α) (a : Nat) (c : Comm) (A : MArr α) (hA : IsBlock G a c A)
    (sel : List Idx) (pre post : List Idx) (e : Idx) (h : SpelledOut sel G.shape.length (pre ++ e :: post))
    (hn : .newaxis ∉ pre ++ e :: post) (hpre : used pre = a) :
    globalGetitem A sel =
      if (resolveEntry (blockStart (G.shape.getD a 0) c.size c.rank) (G.shape.getD a 0)
          (blockLen (G.shape.getD a 0) c.size c.rank) e).2 = false then
        if (resolveEntry (blockStart (G.shape.getD a 0) c.size c.rank) (G.shape.getD a 0)
          (blockLen (G.shape.getD a 0) c.size c.rank) e).1 = .newaxis then .ok .nothing
        else (npGetitem A.arr (pre ++ (resolveEntry (blockStart (G.shape.getD a 0) c.size c.rank)
          (G.shape.getD a 0) (blockLen (G.shape.getD a 0) c.size c.rank) e).1 :: post)).map (.got ∘ .plain)
      else (getitem A (pre ++ (if (resolveEntry (blockStart (G.shape.getD a 0) c.size c.rank) (G.shape.getD a 0)
          (blockLen (G.shape.getD a 0) c.size c.rank) e).1 = .newaxis then .full else
          (resolveEntry (blockStart (G.shape.getD a 0) c.size c.rank) (G.shape.getD a 0)
          (blockLen (G.shape.getD a 0) c.size c.rank) e).1) :: post)).map .got := by
  have hAl : A.arr.shape.length = G.shape.length := by rw [hA.shape]; simp
  have hlt := hA.lt
  obtain ⟨e1, e2, -⟩ := block_get hA
  have hel := h.1
  simp only [List.mem_append, List.mem_cons, not_or] at hel hn
  have hpl : pre.length = a := by
    have := used_count pre
    rw [List.count_eq_zero.2 hn.1, List.count_eq_zero.2 hel.1] at this
    omega
  have e5 : pyGet A.arr.shape (a : Int) = .ok (blockLen (G.shape.getD a 0) c.size c.rank) := by
    rw [pyGet_nat _ _ (by omega)]
    congr 1
    simp only [hA.shape, List.getElem_set_self]
  have e4 : pyGet (pre ++ e :: post) (a : Int) = .ok e := by
    rw [← hpl, pyGet_nat _ _ (by simp)]; simp
  unfold globalGetitem
  rw [hA.axis, e1, e2, e5, hAl, resolveExpand_eq sel _ _ h (by simp [hn])]
  simp only [bind, Except.bind]
  rw [e4]
  simp only
  generalize resolveEntry (blockStart (G.shape.getD a 0) c.size c.rank) (G.shape.getD a 0)
    (blockLen (G.shape.getD a 0) c.size c.rank) e = v
  obtain ⟨v1, v2⟩ := v
  simp only
  rw [← hpl, pySet_nat _ _ _ (by simp)]
  have hset : (pre ++ e :: post).set pre.length v1 = pre ++ v1 :: post := by simp
  rw [hset]
  simp only
  have hmap : (pre ++ v1 :: post).map (fun e => if e = .newaxis then .full else e) =
      pre ++ (if v1 = .newaxis then .full else v1) :: post := by
    have hid : ∀ l : List Idx, .newaxis ∉ l → l.map (fun e => if e = .newaxis then .full else e) = l := by
      intro l hl
      conv_rhs => rw [← List.map_id l]
      apply List.map_congr_left
      intro x hx
      rw [if_neg (by rintro rfl; exact hl hx)]
      rfl
    rw [List.map_append, List.map_cons, hid pre hn.1, hid post hn.2.2]
  rw [hmap]
  split
  · split
    · rfl
    · cases npGetitem A.arr (pre ++ v1 :: post) <;> rfl
  · cases getitem A (pre ++ (if v1 = .newaxis then .full else v1) :: post) <;> rfl

theorem filter_map_add (off L : Nat) (q : Nat → Bool) :
    (((List.range L).filter q).map (off + ·)).filter (fun g => decide (off ≤ g ∧ g < off + L)) =
      ((List.range L).filter q).map (off + ·) := by
  rw [List.filter_eq_self]
  intro g hg
  obtain ⟨k, hk, rfl⟩ := List.mem_map.1 hg
  have := (List.mem_filter.1 hk).1
  simp at this ⊢
  omega

/-- **C08** (any number of axes, slice without step). Let `ps` be the global positions that the slice for
the distributed axis selects. The process gets, as a plain array, the part of the global selection that
belongs to the positions inside its block, or `None`, in which case it has none. The other entries are
arbitrary integers, slices, `...` and at most one list (without integers then). -/
theorem C08_nd_slice (G : NArr α) (a : Nat) (c : Comm) (A : MArr α) (hA : IsBlock G a c A)
    (sel es : List Idx) (h : SpelledOut sel G.shape.length es) (hn : .newaxis ∉ es) (hs : simple es = true)
    (start stop : Option Int) (hnf : start ≠ none ∨ stop ≠ none) (b : Nat)
    (he : EntryAt es a (.sl start stop none) b) (R : NArr α) (hR : npGetitem G sel = .ok R)
    (ps : List Nat) (hps : ps = Slice.Spec.positions (G.shape.getD a 0) start stop 1)
    (st en : Nat) (hst : st = blockStart (G.shape.getD a 0) c.size c.rank)
    (hen : en = st + blockLen (G.shape.getD a 0) c.size c.rank) :
    R.shape[b]? = some ps.length ∧
    ((globalGetitem A sel = .ok .nothing ∧ ps.filter (fun g => decide (st ≤ g ∧ g < en)) = []) ∨
      ∃ B, globalGetitem A sel = .ok (.got (.plain B)) ∧
        B.shape = R.shape.set b (ps.filter fun g => decide (st ≤ g ∧ g < en)).length ∧
        ∀ j, InShape j B.shape →
          B.val j = R.val (j.modify b (· + (ps.filter fun g => decide (g < st)).length))) := by
  obtain ⟨pre, post, rfl, hne, hpre, rfl⟩ := he
  obtain ⟨s1, N, s2, hG, hs1, hN, hAs⟩ := block_shapes G a c A hA
  have hAl : A.arr.shape.length = G.shape.length := by rw [hA.shape]; simp
  have hbl := Mpi.block_le (n := N) (P := c.size) (r := c.rank) hA.rank
  rw [globalGetitem_eq G a c A hA sel pre post _ h hn hpre]
  have hRG : npGetitem G (pre ++ .sl start stop none :: post) = .ok R := by
    rw [← hR]
    unfold npGetitem
    rw [npExpand_self _ _ h.1 h.2.1, (npExpand_iff _ _ _).2 h]
  rw [npGetitem_at G s1 s2 N hG pre post _ h.1 (by simp) (by rw [hs1, hpre]) h.2.1 hs] at hRG
  rw [hN] at hps hst hen ⊢
  subst hst hen
  generalize hL : blockLen N c.size c.rank = L at *
  generalize hoff : blockStart N c.size c.rank = off at *
  have hfull : (resolveEntry off N L (.sl start stop none)).2 = false := by
    simp only [resolveEntry]
    cases start <;> cases stop <;> simp at hnf ⊢
  rw [if_pos hfull]
  have hres := resolved_positions N off L hbl start stop
  simp only at hres
  have hsplit := positions_split N off L hbl (fun g : Nat => decide (Slice.Spec.ascFrom N start ≤ g ∧
    (g : Int) < Slice.Spec.ascTo N stop))
  rw [← positions_filter, ← hps] at hsplit
  have hax : axisOf N (.sl start stop none) = .ok (.kept ps) := by
    simp [axisOf, hps]
  rw [hax] at hRG
  generalize hq : (List.range L).filter (fun (k : Nat) => decide (Slice.Spec.ascFrom N start ≤ ((off + k : Nat) : Int) ∧
    ((off + k : Nat) : Int) < Slice.Spec.ascTo N stop)) = mine at *
  generalize hP1 : (List.range off).filter (fun g : Nat => decide (Slice.Spec.ascFrom N start ≤ (g : Int) ∧
    (g : Int) < Slice.Spec.ascTo N stop)) = P1 at *
  generalize hP3 : ((List.range (N - (off + L))).map (off + L + ·)).filter (fun g : Nat => decide
    (Slice.Spec.ascFrom N start ≤ (g : Int) ∧ (g : Int) < Slice.Spec.ascTo N stop)) = P3 at *
  have hlow : ps.filter (fun g => decide (g < off)) = P1 := by
    rw [hsplit, List.filter_append, List.filter_append]
    have f1 : P1.filter (fun g => decide (g < off)) = P1 := by
      rw [List.filter_eq_self, ← hP1]
      intro g hg
      simpa using (List.mem_filter.1 hg).1
    have f2 : (mine.map (off + ·)).filter (fun g => decide (g < off)) = [] := by
      rw [List.filter_eq_nil_iff]
      intro g hg
      obtain ⟨k, -, rfl⟩ := List.mem_map.1 hg
      simp
    have f3 : P3.filter (fun g => decide (g < off)) = [] := by
      rw [List.filter_eq_nil_iff, ← hP3]
      intro g hg
      obtain ⟨k, -, rfl⟩ := List.mem_map.1 (List.mem_filter.1 hg).1
      simp
      omega
    rw [f1, f2, f3]
    simp
  have hmine : ps.filter (fun g => decide (off ≤ g ∧ g < off + L)) = mine.map (off + ·) := by
    rw [hsplit, List.filter_append, List.filter_append]
    have f1 : P1.filter (fun g => decide (off ≤ g ∧ g < off + L)) = [] := by
      rw [List.filter_eq_nil_iff, ← hP1]
      intro g hg
      have := (List.mem_filter.1 hg).1
      simp at this ⊢
      omega
    have f2 : (mine.map (off + ·)).filter (fun g => decide (off ≤ g ∧ g < off + L)) = mine.map (off + ·) := by
      rw [← hq]
      exact filter_map_add off L _
    have f3 : P3.filter (fun g => decide (off ≤ g ∧ g < off + L)) = [] := by
      rw [List.filter_eq_nil_iff, ← hP3]
      intro g hg
      obtain ⟨k, -, rfl⟩ := List.mem_map.1 (List.mem_filter.1 hg).1
      simp
    rw [f1, f2, f3]
    simp
  rw [hlow, hmine]
  cases h1 : walk pre s1 with
  | error x => rw [h1] at hRG; simp at hRG
  | ok as =>
    cases h2 : walk post s2 with
    | error x => rw [h1, h2] at hRG; simp at hRG
    | ok bs =>
      rw [h1, h2] at hRG
      obtain rfl := Except.ok.inj hRG
      have hk : (pre.filter (!·.isInt)).length = (outShape as).length := (walk_keeps h1).symm
      rw [hk]
      refine ⟨by simp [outShape_append, outShape], ?_⟩
      rcases hres with ⟨hr1, hr2⟩ | ⟨hr1, hr2, hr3⟩
      · left
        rw [if_pos hr1]
        refine ⟨rfl, ?_⟩
        rw [hr2]
        rfl
      · right
        rw [if_neg hr1]
        generalize (resolveEntry off N L (.sl start stop none)).1 = e' at *
        have hlist : e'.isList = false := by cases e' <;> simp [Idx.adv, Idx.isList] at hr2 ⊢
        have huse : e'.uses = true ∧ e' ≠ .ellipsis := by
          cases e' <;> simp [Idx.uses, axisOf] at hr3 ⊢
        have hell : .ellipsis ∉ pre ++ e' :: post := by
          have := h.1
          simp only [List.mem_append, List.mem_cons, not_or] at this ⊢
          exact ⟨this.1, Ne.symm huse.2, this.2.2⟩
        have hlocal := npGetitem_at A.arr s1 s2 L hAs pre post e' hell hr1 (by rw [hs1, hpre])
          (by rw [hAl, ← h.2.1, used_append, used_append, used_cons, used_cons, huse.1]; simp [Idx.uses])
          (by rw [← hs]; exact simple_congr _ _ _ _ hlist (by rw [hr2]; rfl))
        rw [h1, hr3, h2] at hlocal
        rw [hlocal]
        refine ⟨_, rfl, ?_, ?_⟩
        · simp [outShape_append, outShape]
        · intro j hj
          have hj0 := hj
          simp only at hj ⊢
          rw [outShape_append] at hj
          obtain ⟨j1, j2, hj1, hj2, rfl⟩ := Reshape.InShape.split hj
          simp only [outShape] at hj2
          cases hj2 with
          | @cons x _ j2 _ hx hj2 =>
            have hl1 := hj1.length
            have hwA : walk (pre ++ e' :: post) A.arr.shape = .ok (as ++ .kept mine :: bs) := by
              have hel := h.1
              simp only [List.mem_append, List.mem_cons, not_or] at hel
              rw [hAs, walk_append pre hel.1 _ _ _ (by rw [hs1, hpre]), walk_cons _ _ _ _ hr1, h1, hr3, h2]
            have hsrcin := walk_src hwA hj0
            rw [hA.elems _ hsrcin, ← hl1, modify_middle, srcIdx_append _ _ _ _ hl1, srcIdx_append _ _ _ _ hl1]
            congr 1
            have hl2 : (srcIdx as j1).length = a := by rw [← hs1]; exact (walk_src h1 hj1).length
            simp only [srcIdx]
            rw [hN, hoff, ← hl2, modify_middle]
            congr 2
            rw [List.getD_eq_getElem _ _ hx, List.getD_eq_getElem?_getD, hsplit, List.append_assoc,
              List.getElem?_append_right (by omega), Nat.add_sub_cancel,
              List.getElem?_append_left (by simpa using hx), List.getElem?_map, List.getElem?_eq_getElem hx]
            simp
            omega

/-- **C08**: the parts of the processes follow each other without gap or overlap, in the order of the
ranks, and make up the whole selection. -/
theorem C08_nd_tiling (N P : Nat) (hP : 0 < P) (ps : List Nat) (h : ∀ g ∈ ps, g < N) :
    (ps.filter fun g => decide (g < blockStart N P 0)).length = 0 ∧
    (∀ r, r < P → (ps.filter fun g => decide (g < blockStart N P (r + 1))).length =
      (ps.filter fun g => decide (g < blockStart N P r)).length +
      (ps.filter fun g => decide (blockStart N P r ≤ g ∧ g < blockStart N P r + blockLen N P r)).length) ∧
    (ps.filter fun g => decide (g < blockStart N P P)).length = ps.length := by
  refine ⟨?_, ?_, ?_⟩
  · rw [Mpi.blockStart_zero]; simp
  · intro r _
    rw [Mpi.blockStart_succ]
    clear h
    induction ps with
    | nil => rfl
    | cons x ps ih =>
      rw [List.filter_cons, List.filter_cons, List.filter_cons]
      simp only [decide_eq_true_eq]
      split_ifs <;> (try simp only [List.length_cons]) <;> omega
  · have hN : blockStart N P P = N := by
      simp only [blockStart]
      have h1 : N % P < P := Nat.mod_lt _ hP
      rw [Nat.min_eq_right (by omega)]
      exact Nat.div_add_mod N P
    rw [hN, List.filter_eq_self.2]
    intro g hg
    simpa using h g hg

/-- Rows 1 to 3 of the (2, 5, 3) array along its distributed axis: process 0 holds rows 0 to 2. -/
example : ∃ B, globalGetitem ex253part [.int 1, .sl (some 1) (some (-1)) none] = .ok (.got (.plain B)) ∧
    B.shape = [2, 3] ∧ B.val [1, 2] = [1, 2, 2] := ⟨_, rfl, rfl, rfl⟩

/-- The hypotheses hold for this call. -/
example : SpelledOut [.int 1, .sl (some 1) (some (-1)) none] 3 [.int 1, .sl (some 1) (some (-1)) none, .full] ∧
    .newaxis ∉ [Idx.int 1, .sl (some 1) (some (-1)) none, .full] ∧
    simple [.int 1, .sl (some 1) (some (-1)) none, .full] = true ∧
    EntryAt [.int 1, .sl (some 1) (some (-1)) none, .full] 1 (.sl (some 1) (some (-1)) none) 0 ∧
    ∃ R, npGetitem ex253 [.int 1, .sl (some 1) (some (-1)) none] = .ok R ∧ R.shape = [3, 3] :=
  ⟨⟨by decide, rfl, _, [], 1, rfl, .inr ⟨rfl, rfl⟩⟩, by decide, rfl,
    ⟨[.int 1], [.full], rfl, by decide, rfl, rfl⟩, _, rfl, rfl⟩

/-- **C08** (any number of axes, integer). For a non-negative integer on the distributed axis the process
that owns it gets the whole global selection, and every other process gets `None`. -/
theorem C08_nd_index_partial (G : NArr α) (a : Nat) (c : Comm) (A : MArr α) (hA : IsBlock G a c A)
    (sel es : List Idx) (h : SpelledOut sel G.shape.length es) (hn : .newaxis ∉ es) (hs : simple es = true)
    (i b : Nat) (he : EntryAt es a (.int i) b) (R : NArr α) (hR : npGetitem G sel = .ok R)
    (st en : Nat) (hst : st = blockStart (G.shape.getD a 0) c.size c.rank)
    (hen : en = st + blockLen (G.shape.getD a 0) c.size c.rank) :
    (st ≤ i ∧ i < en → ∃ B, globalGetitem A sel = .ok (.got (.plain B)) ∧ B.shape = R.shape ∧
      ∀ j, InShape j R.shape → B.val j = R.val j) ∧
    (¬ (st ≤ i ∧ i < en) → globalGetitem A sel = .ok .nothing) := by
  obtain ⟨pre, post, rfl, hne, hpre, rfl⟩ := he
  obtain ⟨s1, N, s2, hG, hs1, hN, hAs⟩ := block_shapes G a c A hA
  have hAl : A.arr.shape.length = G.shape.length := by rw [hA.shape]; simp
  have hbl := Mpi.block_le (n := N) (P := c.size) (r := c.rank) hA.rank
  rw [globalGetitem_eq G a c A hA sel pre post _ h hn hpre]
  have hRG : npGetitem G (pre ++ .int i :: post) = .ok R := by
    rw [← hR]
    unfold npGetitem
    rw [npExpand_self _ _ h.1 h.2.1, (npExpand_iff _ _ _).2 h]
  rw [npGetitem_at G s1 s2 N hG pre post _ h.1 (by simp) (by rw [hs1, hpre]) h.2.1 hs] at hRG
  rw [hN] at hst hen ⊢
  subst hst hen
  generalize hL : blockLen N c.size c.rank = L at *
  generalize hoff : blockStart N c.size c.rank = off at *
  have hf : (resolveEntry off N L (.int i)).2 = false := rfl
  rw [if_pos hf]
  refine ⟨fun hin => ?_, fun hout => ?_⟩
  · have hr : (resolveEntry off N L (.int i)).1 = .int ((i : Int) - off) := by
      simp only [resolveEntry]
      rw [if_neg (by omega)]
    rw [if_neg (by rw [hr]; simp), hr]
    have hlocal := npGetitem_at A.arr s1 s2 L hAs pre post (.int ((i : Int) - off))
      (by have := h.1; simp only [List.mem_append, List.mem_cons, not_or] at this ⊢; exact ⟨this.1, by simp, this.2.2⟩)
      (by simp) (by rw [hs1, hpre])
      (by rw [hAl, ← h.2.1, used_append, used_append, used_cons, used_cons]; simp [Idx.uses])
      (by rw [← hs]; exact simple_congr _ _ _ _ rfl rfl)
    have hax : axisOf L (.int ((i : Int) - off)) = .ok (.fixed (i - off)) := by
      simp only [axisOf, normIndex]
      rw [if_pos (by omega)]
      simp only
      congr 2
      rw [if_neg (by omega)]
      omega
    have haxG : axisOf N (.int (i : Int)) = .ok (.fixed i) := by
      simp only [axisOf, normIndex]
      rw [if_pos (by omega)]
      simp only
      congr 2
    rw [haxG] at hRG
    rw [hax] at hlocal
    cases h1 : walk pre s1 with
    | error x => rw [h1] at hRG; simp at hRG
    | ok as =>
      cases h2 : walk post s2 with
      | error x => rw [h1, h2] at hRG; simp at hRG
      | ok bs =>
        rw [h1, h2] at hRG
        obtain rfl := Except.ok.inj hRG
        rw [h1, h2] at hlocal
        rw [hlocal]
        refine ⟨_, rfl, by simp [outShape_append, outShape], ?_⟩
        intro j hj
        simp only at hj ⊢
        have hj0 := hj
        rw [outShape_append] at hj
        obtain ⟨j1, j2, hj1, hj2, rfl⟩ := Reshape.InShape.split hj
        have hl1 := hj1.length
        have hwA : walk (pre ++ .int ((i : Int) - off) :: post) A.arr.shape = .ok (as ++ .fixed (i - off) :: bs) := by
          have hel := h.1
          simp only [List.mem_append, List.mem_cons, not_or] at hel
          rw [hAs, walk_append pre hel.1 _ _ _ (by rw [hs1, hpre]), walk_cons _ _ _ _ (by simp), h1, hax, h2]
        have hsrcin := walk_src hwA (j := j1 ++ j2) (by
          rw [outShape_append] at hj0 ⊢
          exact hj0)
        rw [hA.elems _ hsrcin, srcIdx_append _ _ _ _ hl1, srcIdx_append _ _ _ _ hl1]
        congr 1
        have hl2 : (srcIdx as j1).length = a := by rw [← hs1]; exact (walk_src h1 hj1).length
        simp only [srcIdx]
        rw [hN, hoff, ← hl2, modify_middle]
        congr 2
        omega
  · have hr : (resolveEntry off N L (.int i)).1 = .newaxis := by
      simp only [resolveEntry]
      rw [if_pos (by omega)]
    rw [if_pos hr]

/-- Index 4 of the distributed axis is not on process 0; index 2 is. -/
example : globalGetitem ex253part [.ellipsis, .int 4, .full] = .ok .nothing ∧
    ∃ B, globalGetitem ex253part [.ellipsis, .int 2, .full] = .ok (.got (.plain B)) ∧ B.shape = [2, 3] ∧
      B.val [1, 0] = [1, 2, 0] := ⟨rfl, _, rfl, rfl, rfl⟩

/-- **C08** (any number of axes, full slice). If the entry for the distributed axis is `:` (written or
implied), every process gets its block of the global selection, as a distributed array. -/
theorem C08_nd_full (G : NArr α) (a : Nat) (c : Comm) (A : MArr α) (hA : IsBlock G a c A)
    (sel es : List Idx) (h : SpelledOut sel G.shape.length es) (hn : .newaxis ∉ es) (hs : simple es = true)
    (b : Nat) (he : EntryAt es a .full b) (R : NArr α) (hR : npGetitem G sel = .ok R) :
    ∃ B, globalGetitem A sel = .ok (.got (.mpi B)) ∧ IsBlock R b c B := by
  obtain ⟨B, hB1, hB2⟩ := C63_getitem_partial G a c A hA sel es h hs b he R hR
  rw [getitem_eq G a c A hA sel es h _ b he, if_neg (by simp)] at hB1
  obtain ⟨pre, post, rfl, hne, hpre, rfl⟩ := he
  obtain ⟨s1, N, s2, hG, hs1, hN, hAs⟩ := block_shapes G a c A hA
  have hAl : A.arr.shape.length = G.shape.length := by rw [hA.shape]; simp
  rw [globalGetitem_eq G a c A hA sel pre post _ h hn hpre]
  rw [hN] at hB1 ⊢
  generalize hL : blockLen N c.size c.rank = L at *
  generalize hoff : blockStart N c.size c.rank = off at *
  have hfull : (resolveEntry off N L .full).2 = true := rfl
  rw [if_neg (by rw [hfull]; simp)]
  refine ⟨B, ?_, hB2⟩
  have hel := h.1
  simp only [List.mem_append, List.mem_cons, not_or] at hel
  have hent : (if (resolveEntry off N L .full).1 = .newaxis then Idx.full else (resolveEntry off N L .full).1) =
      if L = 0 then .full else .sl (some 0) (some (L : Int)) none := by
    by_cases h0 : L = 0
    · have hr : (resolveEntry off N L .full).1 = .newaxis := by
        show (if (L : Int) ≤ 0 ∨ (L : Int) < 0 then Idx.newaxis else _) = _
        rw [if_pos (by omega)]
      rw [if_pos hr, if_pos h0]
    · have hr : (resolveEntry off N L .full).1 = .sl (some 0) (some (L : Int)) none := by
        show (if (L : Int) ≤ 0 ∨ (L : Int) < 0 then Idx.newaxis
          else .sl (some (max (min 0 (L : Int)) 0)) (some (max (min (L : Int) L) 0)) none) = _
        rw [if_neg (by omega)]
        congr 2 <;> omega
      rw [if_neg (by rw [hr]; simp), hr, if_neg h0]
  rw [hent]
  generalize he' : (if L = 0 then Idx.full else .sl (some 0) (some (L : Int)) none) = e'
  have hcases : e' = .full ∨ e' = .sl (some 0) (some (L : Int)) none := by
    rw [← he']; split <;> simp
  have hax : axisOf L e' = .ok (.kept (List.range L)) := by
    rcases hcases with rfl | rfl
    · exact axisOf_full L
    · simp only [axisOf, Option.getD_none]
      rw [if_neg (by simp), positions_filter]
      congr 2
      rw [List.filter_eq_self]
      intro g hg
      have := List.mem_range.1 hg
      refine decide_eq_true ?_
      simp only [Slice.Spec.ascFrom, Slice.Spec.ascTo]
      split_ifs <;> omega
  have hprops : e' ≠ .ellipsis ∧ e' ≠ .newaxis ∧ e'.uses = true ∧ e'.isList = false ∧ e'.adv = false := by
    rcases hcases with rfl | rfl <;> simp [Idx.uses, Idx.isList, Idx.adv]
  have hell : .ellipsis ∉ pre ++ e' :: post := by
    simp only [List.mem_append, List.mem_cons, not_or]
    exact ⟨hel.1, Ne.symm hprops.1, hel.2.2⟩
  have hus : used (pre ++ e' :: post) = G.shape.length := by
    rw [← h.2.1, used_append, used_append, used_cons, used_cons, hprops.2.2.1]; simp [Idx.uses]
  have hspell : SpelledOut (pre ++ e' :: post) G.shape.length (pre ++ e' :: post) :=
    ⟨hell, hus, _, [], 0, by simp, .inr ⟨rfl, rfl⟩⟩
  have hsame : npGetitem A.arr (pre ++ e' :: post) = npGetitem A.arr (pre ++ .full :: post) := by
    rw [npGetitem_at A.arr s1 s2 L hAs pre post e' hell hprops.2.1 (by rw [hs1, hpre]) (by rw [hAl, hus])
        (by rw [← hs]; exact simple_congr _ _ _ _ hprops.2.2.2.1 hprops.2.2.2.2),
      npGetitem_at A.arr s1 s2 L hAs pre post .full h.1 (by simp) (by rw [hs1, hpre]) (by rw [hAl, h.2.1]) hs,
      hax, axisOf_full]
  rw [getitem_eq G a c A hA _ _ hspell e' _ ⟨pre, post, rfl, hprops.2.1, hpre, rfl⟩, hN, hL, hoff,
    if_neg (by rcases hcases with h | h <;> simp [h]), hsame, hB1]
  rfl

/-- The whole array through `global_slice[0]`, distributed over what is now axis 0. -/
example : ∃ B, globalGetitem ex253part [.int 0] = .ok (.got (.mpi B)) ∧ B.axis = 0 ∧ B.gshape = [5, 3] :=
  ⟨_, rfl, rfl, rfl⟩

/-- **C08** fails for `np.newaxis`: because it is the same object as the mark for missing data, it is
replaced by a full slice, and no axis is added. -/
theorem C08_newaxis_violated :
    (∃ R, npGetitem ex253 [.newaxis, .full] = .ok R ∧ R.shape = [1, 2, 5, 3]) ∧
    (∃ B, globalGetitem ex253part [.newaxis, .full] = .ok (.got (.mpi B)) ∧ B.gshape = [2, 5, 3]) :=
  ⟨⟨_, rfl, rfl⟩, ⟨_, rfl, rfl⟩⟩

/-- The part of `ex253` on process 1 of 2. -/
def ex253last : MArr (List Nat) :=
  { arr := ⟨[2, 2, 3], fun i => i.modify 1 (· + 3)⟩, gshape := [2, 5, 3], axis := 1, lshape := [2, 2, 3],
    loff := [0, 3, 0], comm := ⟨7, 2, 1⟩ }

/-- **C08** fails for `np.newaxis` before a selected range: `[np.newaxis, 0:1]` selects all five rows
along the distributed axis, but the range is taken for that axis, and process 1, which holds rows 3 and 4,
gets `None`. -/
theorem C08_newaxis_shift_violated :
    (∃ R, npGetitem ex253 [.newaxis, .sl (some 0) (some 1) none] = .ok R ∧ R.shape = [1, 1, 5, 3]) ∧
    IsBlock ex253 1 ⟨7, 2, 1⟩ ex253last ∧
    globalGetitem ex253last [.newaxis, .sl (some 0) (some 1) none] = .ok .nothing :=
  ⟨⟨_, rfl, rfl⟩, ⟨by decide, by decide, rfl, rfl, rfl, rfl, rfl, rfl, fun _ _ => rfl⟩, rfl⟩

/-- **C08** fails for a list on the distributed axis: each process applies the indices to its own block.
Of the global elements 1 and 4, process 1 (two elements) raises `IndexError`. -/
theorem C08_list_violated :
    (∃ R, npGetitem ex253 [.full, .list [1, 4]] = .ok R ∧ R.shape = [2, 2, 3]) ∧
    globalGetitem ex253last [.full, .list [1, 4]] = .error .indexError :=
  ⟨⟨_, rfl, rfl⟩, rfl⟩

/-- A tuple between the brackets. -/
theorem globalIndex_tuple (A : MArr α) (l : List Idx) : globalIndex A (.tuple l) = globalGetitem A l := rfl

/-- **C08**. An integer or a slice by itself selects along the first axis, like the tuple that has it first and then `...`,
for which see `C08_nd_slice`, `C08_nd_index_partial` and `C08_nd_full`.

Partial: anything else that is not a tuple is not understood, see `C08_alone_violated`. -/
theorem C08_alone_partial (A : MArr α) (e : Idx) (h : (∃ i, e = .int i) ∨ ∃ a b c, e = .sl a b c) :
    globalIndex A (.one e) = globalGetitem A [e, .ellipsis] := by
  rcases h with ⟨i, rfl⟩ | ⟨a, b, c, rfl⟩ <;> rfl

example : ∃ B, globalIndex ex253part (.one (.int 0)) = .ok (.got (.mpi B)) ∧ B.gshape = [5, 3] :=
  ⟨_, by rw [C08_alone_partial _ _ (.inl ⟨0, rfl⟩)]; rfl, rfl⟩

/-- **C08** fails for `[...]`, `[None]` and a `numpy` integer by themselves: they raise `TypeError`, for every array that has
the axis over which it is distributed. -/
theorem C08_alone_violated (G : NArr α) (a : Nat) (c : Comm) (A : MArr α) (hA : IsBlock G a c A) (i : Int) :
    globalIndex A (.one .ellipsis) = .error .typeError ∧ globalIndex A (.one .newaxis) = .error .typeError ∧
    globalIndex A (.npint i) = .error .typeError := by
  have hAl : A.arr.shape.length = G.shape.length := by rw [hA.shape]; simp
  obtain ⟨e1, e2, -⟩ := block_get hA
  have hlt := hA.lt
  have e5 : ∃ L, pyGet A.arr.shape (a : Int) = .ok L := ⟨_, pyGet_nat _ _ (by omega)⟩
  obtain ⟨L, e5⟩ := e5
  refine ⟨?_, ?_, ?_⟩ <;>
  · unfold globalIndex
    rw [hA.axis, e1, e2, e5]
    rfl

/-- **C08** fails for a list by itself: the numbers are taken for the entries of a tuple. `[[0, 4, 1]]` should give three
rows, of which the second does not exist, and gives the element at (0, 4, 1), on the process that has it. `[[0, 1]]`
should give rows 0 and 1 and gives the rows of process 0. -/
theorem C08_list_alone_violated :
    npGetitem ex253 [.list [0, 4, 1]] = .error .indexError ∧
    (∃ R, globalIndex ex253last (.one (.list [0, 4, 1])) = .ok (.got (.plain R)) ∧ R.shape = [] ∧
      R.val [] = [0, 4, 1]) ∧
    (∃ R, npGetitem ex253 [.list [0, 1]] = .ok R ∧ R.shape = [2, 5, 3]) ∧
    (∃ R, globalIndex ex253part (.one (.list [0, 1])) = .ok (.got (.plain R)) ∧ R.shape = [3]) ∧
    globalIndex ex253last (.one (.list [0, 1])) = .ok .nothing :=
  ⟨rfl, ⟨_, rfl, rfl, rfl⟩, ⟨_, rfl, rfl⟩, ⟨_, rfl, rfl⟩, rfl⟩

end Verif.Dist
