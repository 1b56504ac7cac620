import Verif.Store.Spec
import Verif.Load.ReadProps
import Verif.Dist.GlobalLemmas
import Verif.Dist.IndexLemmas
import Mathlib.Data.List.Nodup

/-!
# Lemmas on writing
-/
namespace Verif.Store

open Verif.Dist (NArr MArr Comm IsBlock)
open Verif.Slice (FileSel PySlice)
open Verif.Reshape (InShape)
open Verif.Mpi (blockStart blockLen)
open Verif.Load (Picks PosAll coords selPos allPos expandSel Io Transferable selPos_picks reslice_pos coords_part allPos_ok)

variable {α : Type}

/-! ### Positions -/

/-- The position is one of those selected along all axes. -/
def Cov (pss : List (List Nat)) (i : List Nat) : Prop :=
  i.length = pss.length ∧ (List.zip pss i).all (fun x => decide (x.2 ∈ x.1)) = true

theorem cov_iff (pss : List (List Nat)) (i : List Nat) :
    Cov pss i ↔ i.length = pss.length ∧ ∀ (k x : Nat) ps, pss[k]? = some ps → i[k]? = some x → x ∈ ps := by
  unfold Cov
  constructor
  · rintro ⟨h1, h2⟩
    refine ⟨h1, fun k x ps e1 e2 => ?_⟩
    rw [List.all_eq_true] at h2
    have := h2 (ps, x) (List.mem_of_getElem? (i := k) (by rw [List.getElem?_zip_eq_some]; exact ⟨e1, e2⟩))
    simpa using this
  · rintro ⟨h1, h2⟩
    refine ⟨h1, ?_⟩
    rw [List.all_eq_true]
    rintro ⟨ps, x⟩ hx
    obtain ⟨k, hk⟩ := List.getElem?_of_mem hx
    rw [List.getElem?_zip_eq_some] at hk
    simpa using h2 k x ps hk.1 hk.2

theorem idx_inShape (pss : List (List Nat)) (i : List Nat) (h : Cov pss i) :
    InShape (List.zipWith (fun ps x => ps.idxOf x) pss i) (pss.map List.length) ∧
      coords pss (List.zipWith (fun ps x => ps.idxOf x) pss i) = i := by
  rw [cov_iff] at h
  obtain ⟨h1, h2⟩ := h
  induction pss generalizing i with
  | nil =>
    cases i with
    | nil => exact ⟨.nil, rfl⟩
    | cons x i => simp at h1
  | cons ps pss ih =>
    cases i with
    | nil => simp at h1
    | cons x i =>
      have hx : x ∈ ps := h2 0 x ps rfl rfl
      obtain ⟨a, b⟩ := ih i (by simpa using h1) (fun k y qs e1 e2 => h2 (k + 1) y qs e1 e2)
      refine ⟨.cons (List.idxOf_lt_length_iff.2 hx) a, ?_⟩
      unfold coords at b ⊢
      simp only [List.zipWith_cons_cons]
      rw [b]
      congr 1
      rw [List.getD_eq_getElem?_getD, List.getElem?_eq_getElem (List.idxOf_lt_length_iff.2 hx)]
      simp

/-- Writing an array that agrees with `G` where it is put. -/
theorem putPos_ok (G D R : NArr α) (pss : List (List Nat)) (hR : R.shape = pss.map List.length)
    (hv : ∀ j, InShape j R.shape → R.val j = G.val (coords pss j)) :
    ∃ D', putPos D pss R = .ok D' ∧ D'.shape = D.shape ∧
      ∀ i, (Cov pss i → D'.val i = G.val i) ∧ (¬ Cov pss i → D'.val i = D.val i) := by
  unfold putPos
  rw [if_pos hR]
  refine ⟨_, rfl, rfl, fun i => ⟨fun h => ?_, fun h => ?_⟩⟩
  · have hc := h
    unfold Cov at hc
    show (if _ then _ else _) = _
    rw [if_pos hc]
    obtain ⟨a, b⟩ := idx_inShape pss i h
    rw [hv _ (by rw [hR]; exact a), b]
  · unfold Cov at h
    show (if _ then _ else _) = _
    rw [if_neg h]

/-! ### The block of a process -/

/-- Positions of the block along all axes. -/
def blockPos (shape : List Nat) (a st len : Nat) : List (List Nat) :=
  (shape.map List.range).set a (((List.range (shape.getD a 0)).drop st).take len)

theorem range_picks (n st len : Nat) (h : st + len ≤ n) :
    Picks n (.slc ⟨some (st : Int), some ((st + len : Nat) : Int), none⟩) (((List.range n).drop st).take len) := by
  have hp : Slice.Spec.positions n (some (st : Int)) (some ((st + len : Nat) : Int)) 1 = ((List.range n).drop st).take len := by
    rw [Dist.positions_filter, Dist.positions_split n st len h]
    have h1 : Slice.Spec.ascFrom n (some (st : Int)) = st := by
      simp only [Slice.Spec.ascFrom]; split <;> omega
    have h2 : Slice.Spec.ascTo n (some ((st + len : Nat) : Int)) = (st + len : Nat) := by
      simp only [Slice.Spec.ascTo]; split <;> omega
    rw [h1, h2]
    rw [List.filter_eq_nil_iff.2, List.filter_eq_self.2, List.filter_eq_nil_iff.2]
    · apply List.ext_getElem
      · simp; omega
      · intro k e1 e2
        simp
    · intro x hx
      simp only [List.mem_map, List.mem_range] at hx
      obtain ⟨k, -, rfl⟩ := hx
      simp <;> omega
    · intro k hk
      rw [List.mem_range] at hk
      simp <;> omega
    · intro k hk
      rw [List.mem_range] at hk
      simp <;> omega
  rw [← hp]
  refine Picks.slc (n := n) ⟨some (st : Int), some ((st + len : Nat) : Int), none⟩ (by simp) ?_
  simp only [Slice.Spec.ascFrom, Slice.Spec.ascTo]
  split <;> split <;> omega

theorem full_picks (n : Nat) : Picks n (.slc {}) (List.range n) := by
  have := Dist.positions_all n
  rw [← this]
  refine Picks.slc (n := n) {} (by simp) ?_
  simp only [Slice.Spec.ascFrom, Slice.Spec.ascTo]
  omega

/-- The selection of a block. -/
def blockSel (m a st len : Nat) : List FileSel :=
  (List.replicate m (.slc {})).set a (.slc ⟨some (st : Int), some ((st + len : Nat) : Int), none⟩)

theorem sel_eq (m a st len : Nat) (ha : a < m) :
    expandSel (some (List.replicate a (.slc {}) ++ [.slc ⟨some (st : Int), some ((st + len : Nat) : Int), none⟩])) m = blockSel m a st len := by
  unfold expandSel blockSel
  simp only [List.length_append, List.length_replicate, List.length_singleton]
  apply List.ext_getElem
  · simp; omega
  · intro k h1 h2
    simp only [List.getElem_set]
    by_cases hk : a = k
    · subst hk
      simp
    · rw [if_neg hk, List.getElem_append]
      split
      · next h3 =>
        rw [List.getElem_append]
        split
        · simp
        · next h4 => simp at h3 h4; omega
      · simp

theorem block_posPicks (shape : List Nat) (a st len : Nat) (h : st + len ≤ shape.getD a 0) :
    (blockSel shape.length a st len).length = shape.length ∧ (blockPos shape a st len).length = shape.length ∧
    ∀ (k : Nat) n s ps, shape[k]? = some n → (blockSel shape.length a st len)[k]? = some s → (blockPos shape a st len)[k]? = some ps → Picks n s ps := by
  refine ⟨by simp [blockSel], by simp [blockPos], fun k n s ps e1 e2 e3 => ?_⟩
  have hk := (List.getElem?_eq_some_iff.1 e1).1
  by_cases hak : a = k
  · subst hak
    unfold blockSel at e2
    unfold blockPos at e3
    rw [List.getElem?_set_self (by simpa using hk)] at e2 e3
    have : shape.getD a 0 = n := by rw [List.getD_eq_getElem?_getD, e1]; rfl
    rw [this] at e3 h
    rw [← Option.some.inj e2, ← Option.some.inj e3]
    exact range_picks n st len h
  · unfold blockSel at e2
    unfold blockPos at e3
    rw [List.getElem?_set_ne hak] at e2 e3
    rw [List.getElem?_replicate, if_pos hk] at e2
    rw [List.getElem?_map, e1] at e3
    rw [← Option.some.inj e2, ← Option.some.inj e3]
    exact full_picks n

theorem block_posAll (shape : List Nat) (a st len : Nat) (h : st + len ≤ shape.getD a 0) :
    PosAll shape (blockSel shape.length a st len) (blockPos shape a st len) := by
  obtain ⟨h1, h2, h3⟩ := block_posPicks shape a st len h
  exact ⟨h1, h2, fun k n s ps e1 e2 e3 => selPos_picks n s ps (h3 k n s ps e1 e2 e3)⟩

theorem blockPos_shape (shape : List Nat) (a st len : Nat) (h : st + len ≤ shape.getD a 0) :
    (blockPos shape a st len).map List.length = shape.set a len := by
  unfold blockPos
  rw [List.map_set, List.map_map]
  have : (List.length ∘ List.range) = id := by funext n; simp
  rw [this, List.map_id]
  congr 1
  simp only [List.length_take, List.length_drop, List.length_range]
  omega

theorem coords_full (shape : List Nat) (i : List Nat) (h : InShape i shape) : coords (shape.map List.range) i = i := by
  unfold coords
  induction h with
  | nil => rfl
  | @cons x n i s hx hi ih =>
    simp only [List.map_cons, List.zipWith_cons_cons, ih]
    congr 1
    rw [List.getD_eq_getElem?_getD, List.getElem?_range hx]
    rfl

/-- Elements of a block by their place in the whole. -/
theorem block_coords (G : NArr α) (a : Nat) (c : Comm) (A : MArr α) (hA : IsBlock G a c A) (i : List Nat) (hi : InShape i A.arr.shape) :
    A.arr.val i = G.val (coords (blockPos G.shape a (blockStart (G.shape.getD a 0) c.size c.rank) (blockLen (G.shape.getD a 0) c.size c.rank)) i) := by
  rw [hA.elems i hi]
  have hle := Mpi.block_le (G.shape.getD a 0) c.size hA.rank
  have hi' := hi
  rw [hA.shape] at hi'
  have hs := Dist.inShape_shift hi' hle
  congr 1
  have hal : a < (G.shape.map List.range).length := by simpa using hA.lt
  have hpa : (G.shape.map List.range)[a] = List.range (G.shape.getD a 0) := by
    rw [List.getElem_map, List.getD_eq_getElem?_getD, List.getElem?_eq_getElem hA.lt]; rfl
  unfold blockPos
  rw [← hpa, coords_part _ a _ _ hal i (by rw [hi.length, hA.shape]; simp), coords_full _ _ hs]
  obtain ⟨g1, g2⟩ := Dist.InShape.get hi' a (by rw [List.length_set]; exact hA.lt)
  rw [List.getElem_set_self] at g2
  rw [List.getD_eq_getElem?_getD, List.getElem?_eq_getElem g1]
  exact g2

theorem makeSel_ok (G : NArr α) (a : Nat) (c : Comm) (A : MArr α) (hA : IsBlock G a c A) :
    makeSel A = .ok (blockSel G.shape.length a (blockStart (G.shape.getD a 0) c.size c.rank) (blockLen (G.shape.getD a 0) c.size c.rank)) := by
  unfold makeSel
  have h1 : Dist.pyGet A.loff A.axis = .ok (blockStart (G.shape.getD a 0) c.size c.rank) := by
    rw [hA.axis, hA.loff, Dist.pyGet_nat _ _ (by simpa using hA.lt), List.getElem_set_self]
  have h2 : Dist.pyGet A.lshape A.axis = .ok (blockLen (G.shape.getD a 0) c.size c.rank) := by
    rw [hA.axis, hA.lshape, hA.shape, Dist.pyGet_nat _ _ (by simpa using hA.lt), List.getElem_set_self]
  rw [h1, h2]
  simp only
  have h3 : A.arr.shape.length = G.shape.length := by rw [hA.shape, List.length_set]
  have h4 : A.axis.toNat = a := by rw [hA.axis]; simp
  rw [h3, h4, sel_eq _ _ _ _ hA.lt]

/-! ### One operation -/

/-- Positions of one part of the block. -/
def actPos (G : NArr α) (a size : Nat) (x : Act) : List (List Nat) :=
  let b := blockPos G.shape a (blockStart (G.shape.getD a 0) size x.rank) (blockLen (G.shape.getD a 0) size x.rank)
  b.set x.ax (((b.getD x.ax []).drop x.part.1).take (x.part.2 - x.part.1))

/-- The part is within the block. -/
def GoodAct (G : NArr α) (a size : Nat) (x : Act) : Prop :=
  x.rank < size ∧ x.ax < G.shape.length ∧ x.part.1 ≤ x.part.2 ∧
    x.part.2 ≤ (G.shape.set a (blockLen (G.shape.getD a 0) size x.rank)).getD x.ax 0

theorem writePart_ok (name : String) (G : NArr α) (a : Nat) (c : Comm) (A : MArr α) (hA : IsBlock G a c A) (ax : Nat) (part : Nat × Nat)
    (hx : GoodAct G a c.size ⟨c.rank, ax, part⟩) (f : File α) (d : Dset α) (hf : f name = some d) (hd : d.arr.shape = G.shape) :
    ∃ D, writePart name A ax part f = .ok (f.put name { d with arr := D }) ∧ D.shape = G.shape ∧
      ∀ i, (Cov (actPos G a c.size ⟨c.rank, ax, part⟩) i → D.val i = G.val i) ∧
        (¬ Cov (actPos G a c.size ⟨c.rank, ax, part⟩) i → D.val i = d.arr.val i) := by
  obtain ⟨-, hax, hse, he⟩ := hx
  simp only at hax hse he
  have hble := Mpi.block_le (G.shape.getD a 0) c.size hA.rank
  obtain ⟨p1, p2, p3⟩ := block_posPicks G.shape a _ _ hble
  have hP := block_posAll G.shape a _ _ hble
  have hshape := blockPos_shape G.shape a _ _ hble
  have hcoords := block_coords G a c A hA
  have hsel := makeSel_ok G a c A hA
  have hAs := hA.shape
  have hact : actPos G a c.size ⟨c.rank, ax, part⟩ = (blockPos G.shape a (blockStart (G.shape.getD a 0) c.size c.rank)
      (blockLen (G.shape.getD a 0) c.size c.rank)).set ax ((((blockPos G.shape a (blockStart (G.shape.getD a 0) c.size c.rank)
      (blockLen (G.shape.getD a 0) c.size c.rank)).getD ax []).drop part.1).take (part.2 - part.1)) := rfl
  rw [hact]
  generalize blockLen (G.shape.getD a 0) c.size c.rank = len at *
  generalize blockStart (G.shape.getD a 0) c.size c.rank = st at *
  have haxp : ax < (blockPos G.shape a st len).length := by omega
  have haxs : ax < (blockSel G.shape.length a st len).length := by omega
  have hpg : (blockPos G.shape a st len).getD ax [] = (blockPos G.shape a st len)[ax] := by
    rw [List.getD_eq_getElem?_getD, List.getElem?_eq_getElem haxp]; rfl
  rw [hpg]
  have hlen : (blockPos G.shape a st len)[ax].length = (G.shape.set a len).getD ax 0 := by
    rw [← hshape, List.getD_eq_getElem?_getD, List.getElem?_map, List.getElem?_eq_getElem haxp]; rfl
  obtain ⟨r, r1, r2, -, -⟩ := reslice_pos _ _ _ (p3 ax _ _ _ (List.getElem?_eq_getElem hax) (List.getElem?_eq_getElem haxs)
    (List.getElem?_eq_getElem haxp)) part.1 part.2 hse (by rw [hlen]; exact he)
  unfold writePart
  rw [hsel, hf]
  simp only
  rw [List.getElem?_eq_getElem haxs, hA.gshape, List.getElem?_eq_getElem hax]
  simp only
  rw [r1]
  simp only [Load.ofSlice]
  have hP' := hP.set ax _ (List.getElem?_eq_getElem hax) r _ r2
  rw [hd, allPos_ok _ _ _ hP'.1 hP'.2.1 hP'.2.2]
  simp only
  have hcs : (cut A.arr ax part.1 part.2).shape = ((blockPos G.shape a st len).set ax
      (((blockPos G.shape a st len)[ax].drop part.1).take (part.2 - part.1))).map List.length := by
    rw [List.map_set, hshape]
    unfold cut
    simp only
    rw [hAs]
    congr 1
    simp only [List.length_take, List.length_drop, hlen]
    omega
  obtain ⟨D', d1, d2, d3⟩ := putPos_ok G d.arr (cut A.arr ax part.1 part.2) _ hcs (fun j hj => by
    show A.arr.val (j.modify ax (· + part.1)) = _
    have hjs := hj
    rw [hcs, List.map_set, hshape] at hjs
    have hlt : (((blockPos G.shape a st len)[ax].drop part.1).take (part.2 - part.1)).length = part.2 - part.1 := by
      simp only [List.length_take, List.length_drop, hlen]; omega
    rw [hlt] at hjs
    have hjl : j.length = (blockPos G.shape a st len).length := by rw [hjs.length]; simp [p2]
    have hjx : j.getD ax 0 < part.2 - part.1 := by
      obtain ⟨g1, g2⟩ := Dist.InShape.get hjs ax (by simpa using hax)
      rw [List.getElem_set_self] at g2
      rw [List.getD_eq_getElem?_getD, List.getElem?_eq_getElem g1]
      exact g2
    have hin : InShape (j.modify ax (· + part.1)) (G.shape.set a len) := by
      exact Dist.inShape_shift hjs (by omega)
    rw [hcoords _ (by rw [hAs]; exact hin), coords_part _ ax part.1 _ haxp j hjl hjx])
  rw [d1]
  exact ⟨D', rfl, by rw [d2, hd], d3⟩

/-- All operations. -/
theorem runActs_ok (name : String) (G : NArr α) (a size : Nat) (ident : Nat) (arrs : Nat → MArr α)
    (hA : ∀ r < size, IsBlock G a ⟨ident, size, r⟩ (arrs r)) (l : List Act) (hl : ∀ x ∈ l, GoodAct G a size x) (f : File α) (d : Dset α)
    (hf : f name = some d) (hd : d.arr.shape = G.shape) :
    ∃ f' D, runActs name arrs l f = (f', none) ∧ f' name = some { d with arr := D } ∧ (∀ n, n ≠ name → f' n = f n) ∧ D.shape = G.shape ∧
      ∀ i, InShape i G.shape → (d.arr.val i = G.val i ∨ ∃ x ∈ l, Cov (actPos G a size x) i) → D.val i = G.val i := by
  induction l generalizing f d with
  | nil =>
    refine ⟨f, d.arr, rfl, hf, fun _ _ => rfl, hd, fun i _ h => ?_⟩
    rcases h with h | ⟨x, hx, -⟩
    · exact h
    · cases hx
  | cons x l ih =>
    have hx := hl x List.mem_cons_self
    obtain ⟨D, w1, w2, w3⟩ := writePart_ok name G a ⟨ident, size, x.rank⟩ (arrs x.rank) (hA x.rank hx.1) x.ax x.part hx f d hf hd
    have hput : (f.put name { d with arr := D }) name = some { d with arr := D } := by simp [File.put]
    obtain ⟨f', D', q1, q2, q3, q4, q5⟩ := ih (fun y hy => hl y (List.mem_cons_of_mem _ hy)) (f.put name { d with arr := D }) { d with arr := D } hput w2
    refine ⟨f', D', ?_, q2, fun n hn => ?_, q4, fun i hi h => q5 i hi ?_⟩
    · simp only [runActs]
      rw [w1]
      exact q1
    · rw [q3 n hn]
      simp [File.put, hn]
    · by_cases hc : Cov (actPos G a size x) i
      · exact .inl ((w3 i).1 hc)
      · rcases h with h | ⟨y, hy, hcy⟩
        · exact .inl (by rw [← h]; exact (w3 i).2 hc)
        · rcases List.mem_cons.1 hy with rfl | hy
          · exact absurd hcy hc
          · exact .inr ⟨y, hy, hcy⟩

/-! ### What is going to be written -/

theorem getD_get {β : Type} (l : List β) (k : Nat) (x : β) (h : k < l.length) : l.getD k x = l[k] := by
  rw [List.getD_eq_getElem?_getD, List.getElem?_eq_getElem h]; rfl

/-- Members of a piece of a list. -/
theorem mem_piece {l : List Nat} {s n j x : Nat} (h1 : s ≤ j) (h2 : j < s + n) (h : l[j]? = some x) : x ∈ (l.drop s).take n := by
  apply List.mem_of_getElem? (i := j - s)
  rw [List.getElem?_take_of_lt (by omega), List.getElem?_drop, ← h]
  congr 1
  omega

/-- Slices that cover a range cover each of its points. -/
theorem covers_mem (t n : Nat) (l : List (Nat × Nat)) (h : PartIO.CoversFrom t n l) (x : Nat) (h1 : t ≤ x) (h2 : x < n) :
    ∃ p ∈ l, p.1 ≤ x ∧ x < p.2 := by
  induction l generalizing t with
  | nil => have : t = n := h; omega
  | cons p l ih =>
    obtain ⟨s, e⟩ := p
    obtain ⟨rfl, h3, h4⟩ := h
    by_cases hx : x < e
    · exact ⟨(s, e), List.mem_cons_self, h1, hx⟩
    · obtain ⟨q, hq, h5⟩ := ih e h4 (by omega)
      exact ⟨q, List.mem_cons_of_mem _ hq, h5⟩

theorem covers_le (t n : Nat) (l : List (Nat × Nat)) (h : PartIO.CoversFrom t n l) : t ≤ n ∧ ∀ p ∈ l, p.1 ≤ p.2 ∧ p.2 ≤ n := by
  induction l generalizing t with
  | nil => exact ⟨Nat.le_of_eq h, fun p hp => by cases hp⟩
  | cons p l ih =>
    obtain ⟨s, e⟩ := p
    obtain ⟨rfl, h3, h4⟩ := h
    obtain ⟨i1, i2⟩ := ih e h4
    refine ⟨by omega, fun q hq => ?_⟩
    rcases List.mem_cons.1 hq with rfl | hq
    · exact ⟨h3, i1⟩
    · exact i2 q hq

/-- The part of the block that has a position. -/
theorem cov_act (G : NArr α) (a size : Nat) (ha : a < G.shape.length) (x : Act) (i : List Nat) (hi : InShape i G.shape)
    (h1 : blockStart (G.shape.getD a 0) size x.rank ≤ i.getD a 0)
    (h2 : i.getD a 0 < blockStart (G.shape.getD a 0) size x.rank + blockLen (G.shape.getD a 0) size x.rank) (hx : x.ax < G.shape.length)
    (h3 : x.part.1 ≤ (i.modify a (· - blockStart (G.shape.getD a 0) size x.rank)).getD x.ax 0)
    (h4 : (i.modify a (· - blockStart (G.shape.getD a 0) size x.rank)).getD x.ax 0 < x.part.2) : Cov (actPos G a size x) i := by
  rw [cov_iff]
  unfold actPos
  simp only
  have hil := hi.length
  have hbl : (blockPos G.shape a (blockStart (G.shape.getD a 0) size x.rank) (blockLen (G.shape.getD a 0) size x.rank)).length = G.shape.length := by
    simp [blockPos]
  refine ⟨by rw [List.length_set, hbl, hil], fun k y ps e1 e2 => ?_⟩
  generalize blockLen (G.shape.getD a 0) size x.rank = len at *
  generalize blockStart (G.shape.getD a 0) size x.rank = st at *
  have hk : k < i.length := (List.getElem?_eq_some_iff.1 e2).1
  have hys : y < G.shape.getD k 0 := by
    obtain ⟨g1, g2⟩ := Dist.InShape.get hi k (by omega)
    rw [List.getElem?_eq_getElem hk] at e2
    rw [List.getD_eq_getElem?_getD, List.getElem?_eq_getElem (by omega), Option.getD_some, ← Option.some.inj e2]
    exact g2
  -- the position in the block along axis k
  have hbase : ∃ ps0, (blockPos G.shape a st len)[k]? = some ps0 ∧
      ps0[(i.modify a (· - st)).getD k 0]? = some y := by
    unfold blockPos
    by_cases hak : a = k
    · subst hak
      rw [List.getElem?_set_self (by simpa using ha)]
      refine ⟨_, rfl, ?_⟩
      have hga : i.getD a 0 = y := by rw [List.getD_eq_getElem?_getD, e2]; rfl
      have hgm : (i.modify a (· - st)).getD a 0 = y - st := by
        rw [List.getD_eq_getElem?_getD, List.getElem?_modify, e2]; simp
      rw [hga] at h1 h2
      rw [hgm, List.getElem?_take_of_lt (by omega), List.getElem?_drop, List.getElem?_range (by omega)]
      congr 1
      omega
    · rw [List.getElem?_set_ne hak, List.getElem?_map, List.getElem?_eq_getElem (by omega)]
      refine ⟨_, rfl, ?_⟩
      have hgm : (i.modify a (· - st)).getD k 0 = y := by
        rw [List.getD_eq_getElem?_getD, List.getElem?_modify, e2]; simp [hak]
      rw [hgm, List.getElem?_range]
      rw [List.getD_eq_getElem?_getD, List.getElem?_eq_getElem (by omega)] at hys
      exact hys
  obtain ⟨ps0, b1, b2⟩ := hbase
  by_cases hxk : x.ax = k
  · subst hxk
    rw [List.getElem?_set_self (by omega)] at e1
    rw [← Option.some.inj e1]
    rw [List.getD_eq_getElem?_getD, b1]
    exact mem_piece h3 (by omega) b2
  · rw [List.getElem?_set_ne hxk, b1] at e1
    rw [← Option.some.inj e1]
    exact List.mem_of_getElem? b2

/-- Which process has a position. -/
theorem has_block (n size x : Nat) (hs : 0 < size) (hx : x < n) :
    ∃ r < size, blockStart n size r ≤ x ∧ x < blockStart n size r + blockLen n size r := by
  obtain ⟨r, h1, h2, h3⟩ := Split.blk_owner n size hs x hx
  exact ⟨r, h1, h2, by rw [← Mpi.blockStart_succ]; exact h3⟩

theorem planOf_ok (io : Io) (hp : 0 < io.p) (hq : 0 < io.q) (G : NArr α) (a : Nat) (c : Comm) (A : MArr α) (hA : IsBlock G a c A)
    (h : Transferable io G.shape a c.size) :
    ∃ l, planOf io A c.rank = .ok l ∧ (∀ x ∈ l, x.rank = c.rank ∧ GoodAct G a c.size x) ∧
      ∀ i, InShape i G.shape → blockStart (G.shape.getD a 0) c.size c.rank ≤ i.getD a 0 →
        i.getD a 0 < blockStart (G.shape.getD a 0) c.size c.rank + blockLen (G.shape.getD a 0) c.size c.rank → ∃ x ∈ l, Cov (actPos G a c.size x) i := by
  obtain ⟨ax, parts, e1, e2⟩ := Load.partition_ok io hp hq G.shape a hA.lt c A.arr.val h
  obtain ⟨G0, hG0, hB⟩ := Proto.newMArr_block G.shape a c A.arr.val hA.lt hA.rank
  have hls : (Proto.newMArr G.shape a c A.arr.val).lshape = A.lshape := by
    rw [hB.lshape, hB.shape, hG0, hA.lshape, hA.shape]
  have hpart : Load.partitionOf io A a = .ok (ax, parts) := by
    rw [← e1]
    unfold Load.partitionOf
    rw [hls, hB.gshape, hG0, hA.gshape, hB.comm, hA.comm]
  have hL : A.lshape.getD a 0 = blockLen (G.shape.getD a 0) c.size c.rank := by
    rw [hA.lshape, hA.shape, Dist.getD_set_self _ _ _ hA.lt]
  rw [hls, hL] at e2
  have hk : (if A.axis < 0 then A.axis + A.arr.shape.length else A.axis).toNat = a := by
    rw [hA.axis, if_neg (by omega)]; simp
  have hgood : (∀ p ∈ parts, p.1 ≤ p.2 ∧ p.2 ≤ (G.shape.set a (blockLen (G.shape.getD a 0) c.size c.rank)).getD ax 0) ∧ ax < G.shape.length ∧
      ∀ x, x < (G.shape.set a (blockLen (G.shape.getD a 0) c.size c.rank)).getD ax 0 → ∃ p ∈ parts, p.1 ≤ x ∧ x < p.2 := by
    rcases Load.parts_cover io hp _ _ _ ax parts hA.lt e2 with ⟨rfl, n, hn, rfl⟩ | ⟨hne, n, hn, hcov⟩
    · have hn' : (G.shape.set a (blockLen (G.shape.getD a 0) c.size c.rank)).getD 0 0 = n := by
        rw [List.getD_eq_getElem?_getD]
        unfold PartIO.Arr.localShape at hn
        simp only at hn
        rw [hn]; rfl
      rw [hn']
      refine ⟨fun p hp => ?_, by have := hA.lt; omega, fun x hx => ⟨(0, n), by simp, by omega, hx⟩⟩
      rw [List.mem_singleton] at hp
      subst hp
      exact ⟨Nat.zero_le _, Nat.le_refl _⟩
    · simp only at hne hn
      have hn' : (G.shape.set a (blockLen (G.shape.getD a 0) c.size c.rank)).getD ax 0 = n := by
        rw [List.getD_eq_getElem?_getD, List.getElem?_set_ne (fun e => hne e.symm), hn]; rfl
      rw [hn']
      refine ⟨(covers_le 0 n parts hcov).2, (List.getElem?_eq_some_iff.1 hn).1, fun x hx => covers_mem 0 n parts hcov x (Nat.zero_le _) hx⟩
  obtain ⟨g1, g2, g3⟩ := hgood
  refine ⟨parts.map fun p => ⟨c.rank, ax, p⟩, ?_, fun x hx => ?_, fun i hi h1 h2 => ?_⟩
  · unfold planOf
    rw [hk, hpart]
  · obtain ⟨p, hp', rfl⟩ := List.mem_map.1 hx
    exact ⟨rfl, hA.rank, g2, g1 p hp'⟩
  · have hb : (i.modify a (· - blockStart (G.shape.getD a 0) c.size c.rank)).getD ax 0 <
        (G.shape.set a (blockLen (G.shape.getD a 0) c.size c.rank)).getD ax 0 := by
      have hil := hi.length
      have hax' : ax < i.length := by omega
      rw [getD_get _ ax 0 (by simpa using hax'), getD_get _ ax 0 (by simpa using g2), List.getElem_modify]
      by_cases hak : a = ax
      · subst hak
        rw [if_pos rfl, List.getElem_set_self, ← getD_get i a 0 hax']
        omega
      · rw [if_neg hak, List.getElem_set_ne hak]
        exact (Dist.InShape.get hi ax g2).2
    obtain ⟨p, hp', p1, p2⟩ := g3 _ hb
    exact ⟨_, List.mem_map.2 ⟨p, hp', rfl⟩, cov_act G a c.size hA.lt _ i hi h1 h2 g2 p1 p2⟩

theorem planAll_ok (io : Io) (hp : 0 < io.p) (hq : 0 < io.q) (G : NArr α) (a size : Nat) (ident : Nat) (arrs : Nat → MArr α)
    (hA : ∀ r < size, IsBlock G a ⟨ident, size, r⟩ (arrs r)) (h : Transferable io G.shape a size) (rs : List Nat) (hrs : ∀ r ∈ rs, r < size) :
    ∃ l, planAll io arrs rs = .ok l ∧ (∀ x ∈ l, GoodAct G a size x) ∧
      ∀ i, InShape i G.shape → ∀ r ∈ rs, blockStart (G.shape.getD a 0) size r ≤ i.getD a 0 →
        i.getD a 0 < blockStart (G.shape.getD a 0) size r + blockLen (G.shape.getD a 0) size r → ∃ x ∈ l, Cov (actPos G a size x) i := by
  induction rs with
  | nil => exact ⟨[], rfl, fun x hx => (by cases hx), fun i _ r hr => (by cases hr)⟩
  | cons r rs ih =>
    obtain ⟨l1, a1, a2, a3⟩ := planOf_ok io hp hq G a ⟨ident, size, r⟩ (arrs r) (hA r (hrs r List.mem_cons_self)) h
    obtain ⟨l2, b1, b2, b3⟩ := ih (fun r' hr' => hrs r' (List.mem_cons_of_mem _ hr'))
    refine ⟨l1 ++ l2, ?_, fun x hx => ?_, fun i hi r' hr' h1 h2 => ?_⟩
    · simp only [planAll]
      rw [show planOf io (arrs r) r = .ok l1 from a1, b1]
    · rcases List.mem_append.1 hx with hx | hx
      · exact (a2 x hx).2
      · exact b2 x hx
    · rcases List.mem_cons.1 hr' with rfl | hr'
      · obtain ⟨x, hx, hc⟩ := a3 i hi h1 h2
        exact ⟨x, List.mem_append_left _ hx, hc⟩
      · obtain ⟨x, hx, hc⟩ := b3 i hi r' hr' h1 h2
        exact ⟨x, List.mem_append_right _ hx, hc⟩

/-- What is to be written covers the array. -/
theorem plan_covers (io : Io) (hp : 0 < io.p) (hq : 0 < io.q) (G : NArr α) (a size : Nat) (hs : 0 < size) (ident : Nat) (arrs : Nat → MArr α)
    (hA : ∀ r < size, IsBlock G a ⟨ident, size, r⟩ (arrs r)) (h : Transferable io G.shape a size) :
    ∃ l, planAll io arrs (List.range size) = .ok l ∧ (∀ x ∈ l, GoodAct G a size x) ∧
      ∀ i, InShape i G.shape → ∃ x ∈ l, Cov (actPos G a size x) i := by
  obtain ⟨l, h1, h2, h3⟩ := planAll_ok io hp hq G a size ident arrs hA h (List.range size) (fun r hr => List.mem_range.1 hr)
  refine ⟨l, h1, h2, fun i hi => ?_⟩
  have ha := (hA 0 hs).lt
  obtain ⟨w1, w2⟩ := Dist.InShape.get hi a ha
  obtain ⟨r, r1, r2, r3⟩ := has_block (G.shape.getD a 0) size (i.getD a 0) hs (by
    rw [List.getD_eq_getElem?_getD, List.getElem?_eq_getElem w1, List.getD_eq_getElem?_getD, List.getElem?_eq_getElem ha]
    exact w2)
  exact h3 i hi r (List.mem_range.2 r1) r2 r3

/-! ### Creating -/

theorem createOrGet_ok (junk : List Nat → α) (f : File α) (name : String) (shape : List Nat) (dtype : Nat) (o : Opts)
    (h : ∀ d, f name = some d → d.arr.shape = shape ∧ d.dtype = dtype) :
    ∃ f' d, createOrGet junk f name shape dtype o = .ok f' ∧ f' name = some d ∧ (∀ n, n ≠ name → f' n = f n) ∧ d.arr.shape = shape ∧
      d.dtype = dtype ∧ (f name = none → d.chunks = o.chunks ∧ d.comp = o.comp ∧ d.opts = o.opts) ∧ (∀ d₀, f name = some d₀ → d = d₀) := by
  unfold createOrGet
  cases hf : f name with
  | none =>
    refine ⟨_, ⟨⟨shape, junk⟩, dtype, o.chunks, o.comp, o.opts⟩, rfl, by simp [File.put], fun n hn => by simp [File.put, hn], rfl, rfl, fun _ => ⟨rfl, rfl, rfl⟩, fun _ h => by cases h⟩
  | some d =>
    obtain ⟨h1, h2⟩ := h d hf
    simp only
    rw [if_neg (by simp [h1]), if_neg (by simp [h2])]
    exact ⟨f, d, rfl, hf, fun _ _ => rfl, h1, h2, (fun h => by cases h), fun _ h => Option.some.inj h⟩

/-- The state of the file system, from that of one file. -/
theorem stored_of (fs : Fs α) (p name : String) (f f' : File α) (hf : fs p = some f ∨ (fs p = none ∧ f = fun _ => none)) (G : NArr α) (dtype : Nat)
    (o : Opts) (d : Dset α) (D : NArr α) (h1 : f' name = some { d with arr := D }) (h2 : ∀ n, n ≠ name → f' n = f n) (h3 : Same D G) (h4 : d.dtype = dtype)
    (h5 : f name = none → d.chunks = o.chunks ∧ d.comp = o.comp ∧ d.opts = o.opts) (h6 : ∀ d₀, f name = some d₀ → d = d₀) :
    Stored p name G dtype o fs (fs.put p f') := by
  have hl : ∀ n, look fs p n = f n := by
    intro n
    unfold look
    rcases hf with hf | ⟨hf, rfl⟩ <;> rw [hf] <;> rfl
  refine ⟨⟨fun q n hqn => ?_, fun q hq => by simp [Fs.put, hq]⟩, { d with arr := D }, by simp [look, Fs.put, h1], h3, h4, ?_⟩
  · by_cases hq : q = p
    · subst hq
      rw [hl n]
      have hn : n ≠ name := fun e => hqn ⟨rfl, e⟩
      simp [look, Fs.put, h2 n hn]
    · simp [look, Fs.put, hq]
  · rw [hl name]
    cases hn : f name with
    | none =>
      obtain ⟨a, b, c⟩ := h5 hn
      simp only
      rw [a, b, c]
    | some d₀ => rw [h6 d₀ hn]

theorem openFile_ok (fs : Fs α) (p : String) (create : Bool) (h : create = true ∨ fs p ≠ none) :
    ∃ f, openFile fs p create = .ok f ∧ (fs p = some f ∨ (fs p = none ∧ f = fun _ => none)) := by
  unfold openFile
  cases hp : fs p with
  | some f => exact ⟨f, rfl, .inl rfl⟩
  | none =>
    rcases h with h | h
    · rw [h]; exact ⟨_, rfl, .inr ⟨rfl, rfl⟩⟩
    · exact absurd hp h

theorem look_of (fs : Fs α) (p : String) (f : File α) (hf : fs p = some f ∨ (fs p = none ∧ f = fun _ => none)) (n : String) : look fs p n = f n := by
  unfold look
  rcases hf with hf | ⟨hf, rfl⟩ <;> rw [hf] <;> rfl

theorem openH5_ok (E : Env) (fs : Fs α) (t : Target) (create : Bool) (size : Nat) (par : Bool) (h : Opens E fs create size t par) :
    ∃ f, openH5 E fs t create size = .ok (f, par) ∧ (fs t.name = some f ∨ (fs t.name = none ∧ f = fun _ => none)) := by
  cases t with
  | path p =>
    obtain ⟨rfl, h1, h2⟩ := h
    obtain ⟨f, f1, f2⟩ := openFile_ok fs p create h2
    refine ⟨f, ?_, f2⟩
    simp only [openH5]
    rw [if_neg (by simp [h1]), f1]
  | handle p b =>
    obtain ⟨rfl, h1⟩ := h
    obtain ⟨f, f1, f2⟩ := openFile_ok fs p false (.inr h1)
    refine ⟨f, ?_, f2⟩
    simp only [openH5]
    rw [f1]

/-! ### One process after the other -/

theorem serialWrite_ok (name : String) (G : NArr α) (c : Comm) (A : MArr α) (hA : IsBlock G 0 c A) (f : File α) (d : Dset α) (hf : f name = some d)
    (hd : d.arr.shape = G.shape) :
    ∃ D, serialWrite name A f = .ok (f.put name { d with arr := D }) ∧ D.shape = G.shape ∧
      ∀ i, (Cov (blockPos G.shape 0 (blockStart (G.shape.getD 0 0) c.size c.rank) (blockLen (G.shape.getD 0 0) c.size c.rank)) i → D.val i = G.val i) ∧
        (¬ Cov (blockPos G.shape 0 (blockStart (G.shape.getD 0 0) c.size c.rank) (blockLen (G.shape.getD 0 0) c.size c.rank)) i → D.val i = d.arr.val i) := by
  have hble := Mpi.block_le (G.shape.getD 0 0) c.size hA.rank
  have hP := block_posAll G.shape 0 _ _ hble
  have hshape := blockPos_shape G.shape 0 _ _ hble
  have hcoords := block_coords G 0 c A hA
  have h1 : A.loff[0]? = some (blockStart (G.shape.getD 0 0) c.size c.rank) := by
    rw [hA.loff, List.getElem?_set_self (by simpa using hA.lt)]
  have h2 : A.lshape[0]? = some (blockLen (G.shape.getD 0 0) c.size c.rank) := by
    rw [hA.lshape, hA.shape, List.getElem?_set_self hA.lt]
  have hAs := hA.shape
  unfold serialWrite
  rw [h1, h2, hf]
  simp only
  generalize blockLen (G.shape.getD 0 0) c.size c.rank = len at *
  generalize blockStart (G.shape.getD 0 0) c.size c.rank = st at *
  rw [hd]
  have hse := sel_eq G.shape.length 0 st len hA.lt
  simp only [List.replicate_zero, List.nil_append] at hse
  rw [hse, allPos_ok _ _ _ hP.1 hP.2.1 hP.2.2]
  simp only
  obtain ⟨D', d1, d2, d3⟩ := putPos_ok G d.arr A.arr _ (by rw [hshape, hAs]) (fun j hj => hcoords j hj)
  rw [d1]
  exact ⟨D', rfl, by rw [d2, hd], d3⟩

theorem serialAll_ok (name : String) (G : NArr α) (size : Nat) (ident : Nat) (arrs : Nat → MArr α)
    (hA : ∀ r < size, IsBlock G 0 ⟨ident, size, r⟩ (arrs r)) (l : List Nat) (hl : ∀ r ∈ l, r < size) (f : File α) (d : Dset α)
    (hf : f name = some d) (hd : d.arr.shape = G.shape) :
    ∃ f' D, serialAll name arrs l f = (f', none) ∧ f' name = some { d with arr := D } ∧ (∀ n, n ≠ name → f' n = f n) ∧ D.shape = G.shape ∧
      ∀ i, InShape i G.shape → (d.arr.val i = G.val i ∨ ∃ r ∈ l, Cov (blockPos G.shape 0 (blockStart (G.shape.getD 0 0) size r)
        (blockLen (G.shape.getD 0 0) size r)) i) → D.val i = G.val i := by
  induction l generalizing f d with
  | nil =>
    refine ⟨f, d.arr, rfl, hf, fun _ _ => rfl, hd, fun i _ h => ?_⟩
    rcases h with h | ⟨x, hx, -⟩
    · exact h
    · cases hx
  | cons r l ih =>
    have hr := hl r List.mem_cons_self
    obtain ⟨D, w1, w2, w3⟩ := serialWrite_ok name G ⟨ident, size, r⟩ (arrs r) (hA r hr) f d hf hd
    have hput : (f.put name { d with arr := D }) name = some { d with arr := D } := by simp [File.put]
    obtain ⟨f', D', q1, q2, q3, q4, q5⟩ := ih (fun y hy => hl y (List.mem_cons_of_mem _ hy)) (f.put name { d with arr := D }) { d with arr := D } hput w2
    refine ⟨f', D', ?_, q2, fun n hn => ?_, q4, fun i hi h => q5 i hi ?_⟩
    · simp only [serialAll]
      rw [w1]
      exact q1
    · rw [q3 n hn]
      simp [File.put, hn]
    · by_cases hc : Cov (blockPos G.shape 0 (blockStart (G.shape.getD 0 0) size r) (blockLen (G.shape.getD 0 0) size r)) i
      · exact .inl ((w3 i).1 hc)
      · rcases h with h | ⟨y, hy, hcy⟩
        · exact .inl (by rw [← h]; exact (w3 i).2 hc)
        · rcases List.mem_cons.1 hy with rfl | hy
          · exact absurd hcy hc
          · exact .inr ⟨y, hy, hcy⟩

/-- Rows of the process that has a position. -/
theorem cov_rows (G : NArr α) (size : Nat) (hs : 0 < size) (h0 : 0 < G.shape.length) (i : List Nat) (hi : InShape i G.shape) :
    ∃ r ∈ List.range size, Cov (blockPos G.shape 0 (blockStart (G.shape.getD 0 0) size r) (blockLen (G.shape.getD 0 0) size r)) i := by
  obtain ⟨w1, w2⟩ := Dist.InShape.get hi 0 h0
  obtain ⟨r, r1, r2, r3⟩ := has_block (G.shape.getD 0 0) size (i.getD 0 0) hs (by
    rw [List.getD_eq_getElem?_getD, List.getElem?_eq_getElem w1, List.getD_eq_getElem?_getD, List.getElem?_eq_getElem h0]
    exact w2)
  refine ⟨r, List.mem_range.2 r1, ?_⟩
  have hble := Mpi.block_le (G.shape.getD 0 0) size r1
  have hc := cov_act G 0 size h0 ⟨r, 0, (0, blockLen (G.shape.getD 0 0) size r)⟩ i hi r2 r3 h0 (Nat.zero_le _) (by
    rw [getD_get _ 0 0 (by simpa using w1), List.getElem_modify, if_pos rfl, ← getD_get i 0 0 w1]
    show i.getD 0 0 - blockStart (G.shape.getD 0 0) size r < blockLen (G.shape.getD 0 0) size r
    omega)
  have hsame : actPos G 0 size ⟨r, 0, (0, blockLen (G.shape.getD 0 0) size r)⟩ =
      blockPos G.shape 0 (blockStart (G.shape.getD 0 0) size r) (blockLen (G.shape.getD 0 0) size r) := by
    unfold actPos
    simp only [List.drop_zero, Nat.sub_zero]
    generalize hb : blockPos G.shape 0 (blockStart (G.shape.getD 0 0) size r) (blockLen (G.shape.getD 0 0) size r) = b
    have hm := blockPos_shape G.shape 0 _ _ hble
    rw [hb] at hm
    have hb0 : 0 < b.length := by
      have := congrArg List.length hm
      simp at this
      omega
    have hlen : b[0].length = blockLen (G.shape.getD 0 0) size r := by
      have := congrArg (fun l : List Nat => l[0]?) hm
      simp only [List.getElem?_map, List.getElem?_eq_getElem hb0, List.getElem?_set_self h0, Option.map_some] at this
      exact Option.some.inj this
    rw [getD_get b 0 [] hb0, ← hlen, List.take_length, List.set_getElem_self]
  rw [← hsame]
  exact hc

end Verif.Store
