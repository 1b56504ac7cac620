import Verif.Load.ReadLemmas

/-!
# C10 for arrays with any number of axes
-/
namespace Verif.Load

open Verif.Dist (NArr MArr Comm IsBlock)
open Verif.Slice (FileSel PySlice)
open Verif.Reshape (InShape)
open Verif.Mpi (blockStart blockLen)

variable {α : Type}

theorem foldl_max_le (l : List Nat) (b : Nat) (x : Nat) (h : l.foldl max b ≤ x) : (∀ y ∈ l, y ≤ x) ∧ b ≤ x := by
  induction l generalizing b with
  | nil => simpa using h
  | cons z l ih =>
    rw [List.foldl_cons] at h
    obtain ⟨h1, h2⟩ := ih _ h
    refine ⟨fun y hy => ?_, by omega⟩
    rcases List.mem_cons.1 hy with rfl | hy
    · omega
    · exact h1 y hy

theorem foldl_max_mem (l : List Nat) (b : Nat) : l.foldl max b = b ∨ l.foldl max b ∈ l := by
  induction l generalizing b with
  | nil => exact .inl rfl
  | cons z l ih =>
    rw [List.foldl_cons]
    rcases ih (max b z) with h | h
    · rcases Nat.le_total b z with hz | hz
      · rw [h, Nat.max_eq_right hz]; exact .inr List.mem_cons_self
      · rw [h, Nat.max_eq_left hz]; exact .inl rfl
    · exact .inr (List.mem_cons_of_mem _ h)

theorem blockLens_eq (n size : Nat) : blockLens n size = (List.range size).map fun (r : Nat) => blockLen n size r := by
  unfold blockLens
  apply List.map_congr_left
  intro r hr
  rw [Split.splitLocal_ok n size r (List.mem_range.1 hr)]
  rfl

/-- The transfer can be divided when it should be possible. -/
theorem partition_ok (io : Io) (hp : 0 < io.p) (hq : 0 < io.q) (shape : List Nat) (a : Nat) (ha : a < shape.length)
    (c : Comm) (junk : List Nat → α) (h : Transferable io shape a c.size) :
    ∃ ax parts, partitionOf io (Proto.newMArr shape a c junk) a = .ok (ax, parts) ∧
      PartIO.partitionIO ⟨shape, a, io.item, blockLens (shape.getD a 0) c.size⟩
        ((Proto.newMArr shape a c junk).lshape.getD a 0) (!io.isMpi) io.p io.q = .ok (ax, parts) := by
  have hgo : ∀ x, PartIO.partitionIO ⟨shape, a, io.item, blockLens (shape.getD a 0) c.size⟩
        ((Proto.newMArr shape a c junk).lshape.getD a 0) (!io.isMpi) io.p io.q = .ok x →
      ∃ ax parts, partitionOf io (Proto.newMArr shape a c junk) a = .ok (ax, parts) ∧
      PartIO.partitionIO ⟨shape, a, io.item, blockLens (shape.getD a 0) c.size⟩
        ((Proto.newMArr shape a c junk).lshape.getD a 0) (!io.isMpi) io.p io.q = .ok (ax, parts) := by
    intro x hx
    refine ⟨x.1, x.2, ?_, hx⟩
    have : partitionOf io (Proto.newMArr shape a c junk) a = ofPart (PartIO.partitionIO ⟨shape, a, io.item, blockLens (shape.getD a 0) c.size⟩
        ((Proto.newMArr shape a c junk).lshape.getD a 0) (!io.isMpi) io.p io.q) := rfl
    rw [this, hx]
    rfl
  generalize (Proto.newMArr shape a c junk).lshape.getD a 0 = len at *
  obtain ⟨y, ys, hys⟩ := List.exists_cons_of_ne_nil (show shape ≠ [] by intro e; rw [e] at ha; simp at ha)
  have hfirst : ∃ n, (PartIO.Arr.localShape ⟨shape, a, io.item, blockLens (shape.getD a 0) c.size⟩ len)[0]? = some n := by
    unfold PartIO.Arr.localShape
    simp only
    rw [List.getElem?_eq_getElem (by rw [List.length_set]; omega)]
    exact ⟨_, rfl⟩
  obtain ⟨n0, hn0⟩ := hfirst
  cases hm : io.isMpi with
  | false =>
    rw [hm] at hgo
    exact hgo _ (PartIO.C09_whole _ io.p io.q hp len n0 true hn0 (.inl rfl)).1
  | true =>
    rw [hm] at hgo
    rcases h with h | ⟨⟨r0, hr0, hpos⟩, h⟩
    · rw [hm] at h; cases h
    · generalize hA : (⟨shape, a, io.item, blockLens (shape.getD a 0) c.size⟩ : PartIO.Arr) = A at *
      have hsh : A.shape = shape := by rw [← hA]
      have haxis : A.axis = a := by rw [← hA]
      have hmem : ∀ v, v ∈ A.lens.map A.nbytes ↔ ∃ r, r < c.size ∧ localBytes io.item shape a c.size r = v := by
        intro v
        rw [← hA]
        simp only [PartIO.Arr.nbytes, PartIO.Arr.localShape, blockLens_eq, List.map_map, List.mem_map, List.mem_range,
          Function.comp]
        rfl
      have hge : ∀ r < c.size, localBytes io.item shape a c.size r ≤ A.largest := fun r hr =>
        PartIO.foldl_max_ge _ _ _ (.inl ((hmem _).2 ⟨r, hr, rfl⟩))
      have hlpos : 0 < A.largest := Nat.lt_of_lt_of_le hpos (hge r0 hr0)
      have hatt : ∃ r, r < c.size ∧ localBytes io.item shape a c.size r = A.largest := by
        rcases foldl_max_mem (A.lens.map A.nbytes) 0 with h0 | h0
        · have : A.largest = 0 := h0
          omega
        · exact (hmem _).1 h0
      obtain ⟨rm, hrm, hrme⟩ := hatt
      have hk : ∀ m, A.largest * io.q ≤ m * io.p ↔ A.minAxisSize io.p io.q ≤ m := by
        intro m
        unfold PartIO.Arr.minAxisSize
        rw [Nat.div_le_iff_le_mul hp]
        generalize A.largest * io.q = x
        generalize hmp : m * io.p = y
        omega
      have h1 : ∀ r < c.size, localBytes io.item shape a c.size r * io.q ≤ A.minAxisSize io.p io.q * io.p :=
        fun r hr => Nat.le_trans (Nat.mul_le_mul_right _ (hge r hr)) ((hk _).2 (Nat.le_refl _))
      have h2 := h (A.minAxisSize io.p io.q) h1 (fun m' hm' => (hk m').1 (by rw [← hrme]; exact hm' rm hrm))
      have hk0 : A.minAxisSize io.p io.q ≠ 0 := by
        intro h0
        have := (hk 0).2 (by omega)
        have hpos' : 0 < A.largest * io.q := Nat.mul_pos hlpos hq
        omega
      by_cases hk1 : A.minAxisSize io.p io.q = 1
      · exact hgo _ (PartIO.C09_whole A io.p io.q hp len n0 _ hn0 (.inr hk1)).1
      · cases hres : PartIO.partitionIO A len false io.p io.q with
        | ok x => exact hgo x (by simpa using hres)
        | error e =>
          exfalso
          cases e with
          | runtimeError =>
            rw [PartIO.C09_refused A (by rw [hsh, haxis]; exact ha) io.p io.q len (by omega)] at hres
            rcases h2 with h2 | ⟨i, n, hi, hn, hmn⟩
            · exact hk1 h2
            · have := hres i n (by rw [hsh]; exact hn) (by rw [haxis]; exact hi)
              omega
          | zeroDivision =>
            unfold PartIO.partitionIO at hres
            simp only [hk1, hk0, Bool.false_eq_true, or_self, if_false] at hres
            split at hres
            · cases hres
            · split at hres
              · cases hres
              · split at hres <;> cases hres

/-- What is known about the partitions. -/
theorem parts_cover (io : Io) (hp : 0 < io.p) (A : PartIO.Arr) (len : Nat) (skip : Bool) (ax : Nat) (parts : List (Nat × Nat))
    (ha : A.axis < A.shape.length) (h : PartIO.partitionIO A len skip io.p io.q = .ok (ax, parts)) :
    (ax = 0 ∧ ∃ n, (A.localShape len)[0]? = some n ∧ parts = [(0, n)]) ∨
    (ax ≠ A.axis ∧ ∃ n, A.shape[ax]? = some n ∧ PartIO.Covers n parts) := by
  by_cases hk : skip = true ∨ A.minAxisSize io.p io.q = 1
  · left
    have hl : 0 < (A.localShape len).length := by unfold PartIO.Arr.localShape; rw [List.length_set]; omega
    rw [(PartIO.C09_whole A io.p io.q hp len _ skip (List.getElem?_eq_getElem hl) hk).1] at h
    obtain ⟨rfl, rfl⟩ := Prod.mk.inj (Except.ok.inj h)
    exact ⟨rfl, _, List.getElem?_eq_getElem hl, rfl⟩
  · right
    rw [not_or] at hk
    have hs : skip = false := by simpa using hk.1
    rw [hs] at h
    obtain ⟨h1, h2, -⟩ := PartIO.C09_split_io_partial A io.p io.q hp len hk.2 ax parts h
    exact ⟨h1, h2⟩

/-- The selection picks the positions `pss` along the axes. -/
def PicksAll (shape : List Nat) (es : List FileSel) (pss : List (List Nat)) : Prop :=
  es.length = shape.length ∧ pss.length = shape.length ∧
  ∀ (k : Nat) n s ps, shape[k]? = some n → es[k]? = some s → pss[k]? = some ps → Picks n s ps

/-- **C10** (any number of axes). Reading a dataset with a selection of slices (and, from HDF5, one list)
gives on every process its block of the selected array, distributed over the axis asked for, whether or
not the file is open for parallel access and however the transfer is divided. -/
theorem C10_nd_read_partial (fmt : Format) (io : Io) (hp : 0 < io.p) (hq : 0 < io.q) (junk : List Nat → α) (G : NArr α)
    (sel : Option (List FileSel)) (es : List FileSel) (hes : Covering G.shape.length sel es) (pss : List (List Nat))
    (hps : PicksAll G.shape es pss) (axis : Int) (a : Nat) (ha : Dist.Names G.shape.length axis a) (c : Comm)
    (hc : c.rank < c.size)
    (hlist : (fmt = .hdf5 ∧ es.countP FileSel.isList ≤ 1 ∧ Transferable io (pss.map List.length) a c.size) ∨
      (fmt = .zarr ∧ es.any FileSel.isList = false))
    (R : NArr α) (hR : Selected G pss R) :
    ∃ A, fromFile fmt io junk G sel axis c = .ok A ∧ IsBlock R a c A := by
  obtain ⟨hlen, m, hes⟩ := hes
  obtain ⟨han, hax⟩ := ha
  obtain ⟨-, hpl, hpk⟩ := hps
  have hexp : expandSel sel G.shape.length = es := by
    unfold expandSel
    cases sel with
    | none =>
      simp only [Option.getD_none, List.nil_append] at hes
      rw [hes, List.length_replicate] at hlen
      rw [hes, hlen]
    | some l =>
      simp only [Option.getD_some] at hes
      rw [hes, List.length_append, List.length_replicate] at hlen
      simp only
      rw [hes, ← hlen, Nat.add_sub_cancel_left]
  have hk : (if axis < 0 then (G.shape.length : Int) + axis else axis).toNat = a := by
    split <;> omega
  have hal : a < pss.length := by omega
  have hae : a < es.length := by omega
  unfold fromFile
  rw [if_neg (by omega)]
  simp only [hexp, hk]
  rw [readShape_ok G.shape es pss hlen hpl hpk]
  simp only
  rw [List.getElem?_eq_getElem han, List.getElem?_eq_getElem hae]
  simp only
  -- the block of this process
  obtain ⟨G0, hG0, hB⟩ := Proto.newMArr_block (pss.map List.length) a c junk (by simpa using hal) hc
  have hN : G0.shape.getD a 0 = pss[a].length := by
    rw [hG0, List.getD_eq_getElem?_getD, List.getElem?_map, List.getElem?_eq_getElem hal]; rfl
  have hst : (Proto.newMArr (pss.map List.length) a c junk).loff.getD a 0 = blockStart pss[a].length c.size c.rank := by
    rw [hB.loff, Dist.getD_set_self _ _ _ (by rw [List.length_replicate, hG0]; simpa using hal), hN]
  have hL : (Proto.newMArr (pss.map List.length) a c junk).lshape.getD a 0 = blockLen pss[a].length c.size c.rank := by
    rw [hB.lshape, hB.shape, Dist.getD_set_self _ _ _ (by rw [hG0]; simpa using hal), hN]
  have hble := Mpi.block_le pss[a].length c.size hc
  rw [hst, hL]
  obtain ⟨r, r1, r2, r3, r', q1, q2, q3⟩ := reslice_pos _ _ _ (hpk a _ _ _ (List.getElem?_eq_getElem han)
    (List.getElem?_eq_getElem hae) (List.getElem?_eq_getElem hal)) (blockStart pss[a].length c.size c.rank)
    (blockStart pss[a].length c.size c.rank + blockLen pss[a].length c.size c.rank) (by omega) hble
  rw [r1]
  simp only [ofSlice]
  rw [Nat.add_sub_cancel_left] at r2 q1 q2
  have hP0 : PosAll G.shape es pss := ⟨hlen, hpl, fun k n s ps h1 h2 h3 => selPos_picks n s ps (hpk k n s ps h1 h2 h3)⟩
  have hP := hP0.set a _ (List.getElem?_eq_getElem han) r _ r2
  have hmapl : (es.set a r).map FileSel.isList = es.map FileSel.isList :=
    map_set_same _ _ _ _ _ (List.getElem?_eq_getElem hae) r3
  have hshape : (Proto.newMArr (pss.map List.length) a c junk).arr.shape =
      (pss.set a ((pss[a].drop (blockStart pss[a].length c.size c.rank)).take (blockLen pss[a].length c.size c.rank))).map
        List.length := by
    rw [hB.shape, List.map_set, hG0, ← hG0, hN]
    congr 1
    simp only [List.length_take, List.length_drop]
    omega
  rcases hlist with ⟨rfl, hcount, htr⟩ | ⟨rfl, hany⟩
  · have hcount' : (es.set a r).countP FileSel.isList ≤ 1 := by
      rw [countP_map_id, hmapl, ← countP_map_id]; exact hcount
    obtain ⟨ax, parts, e1, e2⟩ := partition_ok io hp hq (pss.map List.length) a (by simpa using hal) c junk htr
    rw [hL] at e2
    simp only [readInto]
    rw [e1]
    simp only
    have hax0 : 0 < G.shape.length := by omega
    have hfold : ∃ D', parts.foldlM (readPart G (es.set a r) ax) (Proto.newMArr (pss.map List.length) a c junk).arr = .ok D' ∧
        D'.shape = (Proto.newMArr (pss.map List.length) a c junk).arr.shape ∧
        ∀ i, InShape i (Proto.newMArr (pss.map List.length) a c junk).arr.shape → D'.val i = G.val (coords
          (pss.set a ((pss[a].drop (blockStart pss[a].length c.size c.rank)).take (blockLen pss[a].length c.size c.rank))) i) := by
      rcases parts_cover io hp _ _ _ ax parts (by simpa using hal) e2 with ⟨rfl, n, hn, rfl⟩ | ⟨hne, n, hn, hcov⟩
      · have hp0 : 0 < (pss.set a ((pss[a].drop (blockStart pss[a].length c.size c.rank)).take (blockLen pss[a].length c.size c.rank))).length := by
          rw [List.length_set]; omega
        have hnl : n = (pss.set a ((pss[a].drop (blockStart pss[a].length c.size c.rank)).take
            (blockLen pss[a].length c.size c.rank)))[0].length := by
          unfold PartIO.Arr.localShape at hn
          simp only at hn
          have := hshape
          rw [hB.shape, hN, hG0] at this
          rw [this, List.getElem?_map, List.getElem?_eq_getElem hp0] at hn
          exact (Option.some.inj hn).symm
        refine readParts_ok G _ _ hP hcount' 0 hax0 _ (List.getElem?_eq_getElem hp0) [(0, n)] 0
          ⟨rfl, by omega, hnl⟩ (fun s e hse hse' hle n' t hn' ht => ?_) _ hshape (fun i _ h0 => absurd h0 (by omega))
        rw [List.mem_singleton] at hse
        obtain ⟨rfl, rfl⟩ := Prod.mk.inj hse
        rw [hnl, List.drop_zero, Nat.sub_zero, List.take_length]
        by_cases ha0 : a = 0
        · subst ha0
          rw [List.getElem?_set_self (by omega)] at ht
          rw [List.getElem?_eq_getElem han] at hn'
          rw [← Option.some.inj ht, ← Option.some.inj hn']
          refine ⟨r', ?_, ?_, by rw [q3, r3]⟩
          · rw [List.getElem_set_self]
            rw [← q1]
            congr 1
            simp only [List.length_take, List.length_drop]
            omega
          · rw [List.getElem_set_self]; exact q2
        · rw [List.getElem?_set_ne ha0] at ht
          have hP1 := hpk 0 n' t _ hn' ht (List.getElem?_eq_getElem (by omega))
          obtain ⟨r2', z1, z2, z3, -⟩ := reslice_pos _ _ _ hP1 0 _ (Nat.zero_le _) (Nat.le_refl _)
          have hz : (pss.set a ((pss[a].drop (blockStart pss[a].length c.size c.rank)).take
            (blockLen pss[a].length c.size c.rank)))[0] = pss[0] := by
            rw [List.getElem_set_ne (by omega)]
          rw [hz]
          rw [List.drop_zero, Nat.sub_zero, List.take_length] at z2
          exact ⟨r2', z1, z2, z3⟩
      · have hne' : a ≠ ax := fun e => hne e.symm
        have hnx : (pss.map List.length)[ax]? = some n := hn
        have haxl : ax < pss.length := by
          have := (List.getElem?_eq_some_iff.1 hnx).1
          simpa using this
        have hpx : (pss.set a ((pss[a].drop (blockStart pss[a].length c.size c.rank)).take
            (blockLen pss[a].length c.size c.rank)))[ax]? = some pss[ax] := by
          rw [List.getElem?_set_ne hne', List.getElem?_eq_getElem haxl]
        have hnn : n = pss[ax].length := by
          rw [List.getElem?_map, List.getElem?_eq_getElem haxl] at hnx
          exact (Option.some.inj hnx).symm
        refine readParts_ok G _ _ hP hcount' ax (by omega) pss[ax] hpx parts 0 (by rw [← hnn]; exact hcov)
          (fun s e hse hse' hle n' t hn' ht => ?_) _ hshape (fun i _ h0 => absurd h0 (by omega))
        rw [List.getElem?_set_ne hne'] at ht
        obtain ⟨r2', z1, z2, z3, -⟩ := reslice_pos _ _ _ (hpk ax n' t _ hn' ht (List.getElem?_eq_getElem haxl)) s e hse' hle
        exact ⟨r2', z1, z2, z3⟩
    obtain ⟨D', f1, f2, f3⟩ := hfold
    rw [f1]
    exact ⟨_, rfl, block_of_coords G R pss hR a c hal hc junk D' f2 (fun i hi => f3 i (by rw [← f2]; exact hi))⟩
  · have hany' : (es.set a r).any FileSel.isList = false := by
      rw [any_map_id, hmapl, ← any_map_id]; exact hany
    simp only [readInto]
    rw [zarrBasic_ok G _ _ hP hany']
    simp only
    rw [if_pos (by rw [hshape]; rfl)]
    exact ⟨_, rfl, block_of_coords G R pss hR a c hal hc junk _ (by rw [hshape]; rfl) (fun i _ => rfl)⟩

/-! ### A case: three axes, the middle one distributed over two processes -/

/-- A dataset of shape `(3, 5, 2)`; the element at `(x, y, z)` is `100 x + 10 y + z`. -/
def cube : NArr Nat := ⟨[3, 5, 2], fun i => 100 * i.getD 0 0 + 10 * i.getD 1 0 + i.getD 2 0⟩

/-- `[0, 2]` along the first axis, `1::2` along the second, everything along the third. -/
def cubeSel : List FileSel := [.list [0, 2], .slc ⟨some 1, none, some 2⟩]

def smallIo (mpi : Bool) : Io := ⟨mpi, 8, 16, 1⟩

/-- The value at an index, of the array of a process. -/
def look (r : Except PyErr (MArr Nat)) (i : List Nat) : Option (List Nat × List Nat × Nat) :=
  match r with
  | .ok A => some (A.arr.shape, A.loff, A.arr.val i)
  | .error _ => none

-- the second process has the position 3 of the second axis; at most two elements are transferred at once
example : look (fromFile .hdf5 (smallIo true) (fun _ => 99) cube (some cubeSel) 1 ⟨0, 2, 1⟩) [1, 0, 1] =
    some ([2, 1, 2], [0, 1, 0], 231) := by decide +kernel
example : look (fromFile .hdf5 (smallIo false) (fun _ => 99) cube (some cubeSel) (-2) ⟨0, 2, 1⟩) [1, 0, 1] =
    some ([2, 1, 2], [0, 1, 0], 231) := by decide +kernel

theorem cube_picks : PicksAll cube.shape (cubeSel ++ [.slc {}]) [[0, 2], [1, 3], [0, 1]] := by
  refine ⟨rfl, rfl, fun k n s ps h1 h2 h3 => ?_⟩
  match k with
  | 0 =>
    obtain rfl := Option.some.inj h1
    obtain rfl := Option.some.inj h2
    obtain rfl := Option.some.inj h3
    exact .list [0, 2] (by decide) (by decide)
  | 1 =>
    obtain rfl := Option.some.inj h1
    obtain rfl := Option.some.inj h2
    obtain rfl := Option.some.inj h3
    exact .slc ⟨some 1, none, some 2⟩ (by decide) (by decide)
  | 2 =>
    obtain rfl := Option.some.inj h1
    obtain rfl := Option.some.inj h2
    obtain rfl := Option.some.inj h3
    exact .slc {} (by decide) (by decide)
  | k + 3 => cases h1

/-- All hypotheses can be met, with several transfers. -/
example : ∃ A, fromFile .hdf5 (smallIo true) (fun _ => 99) cube (some cubeSel) 1 ⟨0, 2, 1⟩ = .ok A ∧
    IsBlock (takePos cube [[0, 2], [1, 3], [0, 1]]) 1 ⟨0, 2, 1⟩ A := by
  refine C10_nd_read_partial .hdf5 (smallIo true) (by decide) (by decide) _ cube (some cubeSel) (cubeSel ++ [.slc {}])
    ⟨rfl, 1, rfl⟩ _ cube_picks 1 1 ⟨by decide, .inl rfl⟩ ⟨0, 2, 1⟩ (by decide)
    (.inl ⟨rfl, by decide, .inr ⟨⟨0, by decide, by decide⟩, fun m h1 h2 => .inr ⟨0, 2, by decide, rfl, h2 2 ?_⟩⟩⟩) _
    (takePos_selected _ _)
  intro r hr
  have : r = 0 ∨ r = 1 := by
    have : r < 2 := hr
    omega
  rcases this with rfl | rfl <;> decide

/-! ### Where the property fails -/

/-- C10: a selection of two lists cannot be read from HDF5. -/
theorem C10_two_lists_violated :
    fromFile .hdf5 (smallIo false) (fun _ => 99) cube (some [.list [0, 2], .list [1, 3]]) 2 ⟨0, 1, 0⟩ = .error .typeError := by
  rfl

/-- C10: a list cannot be read from Zarr. -/
theorem C10_zarr_list_violated :
    fromFile .zarr (smallIo false) (fun _ => 99) cube (some [.list [0, 2]]) 1 ⟨0, 1, 0⟩ = .error .indexError := by
  rfl

/-- C10: a dataset that is empty after selection cannot be read from a file open for parallel access. -/
theorem C10_empty_violated :
    fromFile .hdf5 (smallIo true) (fun _ => 99) cube (some [.slc ⟨some 1, some 1, none⟩]) 1 ⟨0, 1, 0⟩ =
      .error .zeroDivision := by
  rfl

end Verif.Load
