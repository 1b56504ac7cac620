import Verif.Load.Lemmas

/-!
# Lemmas for reads with any number of axes
-/
namespace Verif.Load

open Verif.Dist (NArr MArr Comm IsBlock)
open Verif.Slice (FileSel PySlice)
open Verif.Reshape (InShape)
open Verif.Mpi (blockStart blockLen)

variable {α : Type}

theorem map_set_same {β γ : Type} (p : β → γ) (l : List β) (k : Nat) (r s : β) (hk : l[k]? = some s) (h : p r = p s) :
    (l.set k r).map p = l.map p := by
  obtain ⟨hlt, rfl⟩ := List.getElem?_eq_some_iff.1 hk
  apply List.ext_getElem
  · simp
  · intro j h1 h2
    simp only [List.getElem_map, List.getElem_set]
    split
    · next e => subst e; exact h
    · rfl

theorem countP_map_id {β : Type} (p : β → Bool) (l : List β) : l.countP p = (l.map p).countP id := by
  rw [List.countP_map]
  rfl

theorem any_map_id {β : Type} (p : β → Bool) (l : List β) : l.any p = (l.map p).any id := by
  rw [List.any_map]
  rfl

/-- Positions are as they should be on all axes. -/
def PosAll (shape : List Nat) (sel : List FileSel) (pss : List (List Nat)) : Prop :=
  sel.length = shape.length ∧ pss.length = shape.length ∧
  ∀ (k : Nat) n s ps, shape[k]? = some n → sel[k]? = some s → pss[k]? = some ps → selPos n s = .ok ps

theorem PosAll.set {shape : List Nat} {sel : List FileSel} {pss : List (List Nat)} (h : PosAll shape sel pss)
    (a n : Nat) (hn : shape[a]? = some n) (r : FileSel) (ps : List Nat) (hr : selPos n r = .ok ps) :
    PosAll shape (sel.set a r) (pss.set a ps) := by
  obtain ⟨h1, h2, h3⟩ := h
  refine ⟨by simpa using h1, by simpa using h2, fun k m s qs e1 e2 e3 => ?_⟩
  have hk := (List.getElem?_eq_some_iff.1 e1).1
  by_cases hak : a = k
  · subst hak
    rw [List.getElem?_set_self (by omega)] at e2 e3
    rw [hn] at e1
    rw [← Option.some.inj e1, ← Option.some.inj e2, ← Option.some.inj e3]
    exact hr
  · rw [List.getElem?_set_ne hak] at e2 e3
    exact h3 k m s qs e1 e2 e3

theorem h5Read_ok (G : NArr α) (sel : List FileSel) (pss : List (List Nat)) (h : PosAll G.shape sel pss)
    (hc : sel.countP FileSel.isList ≤ 1) : h5Read G sel = .ok (takePos G pss) := by
  unfold h5Read
  rw [if_neg (by simp [h.1]), if_neg (by omega), allPos_ok G.shape sel pss h.1 h.2.1 h.2.2]

theorem zarrBasic_ok (G : NArr α) (sel : List FileSel) (pss : List (List Nat)) (h : PosAll G.shape sel pss)
    (hc : sel.any FileSel.isList = false) : zarrBasic G sel = .ok (takePos G pss) := by
  unfold zarrBasic
  rw [if_neg (by simp [h.1, hc]), allPos_ok G.shape sel pss h.1 h.2.1 h.2.2]

/-- One partition. -/
theorem readPart_ok (G : NArr α) (sel : List FileSel) (pss : List (List Nat)) (h : PosAll G.shape sel pss)
    (hc : sel.countP FileSel.isList ≤ 1) (ax : Nat) (hax : ax < G.shape.length) (s e : Nat) (hse : s ≤ e)
    (D : NArr α) (hD : D.shape = pss.map List.length) (ps : List Nat) (hps : pss[ax]? = some ps) (he : e ≤ ps.length)
    (hre : ∀ n t, G.shape[ax]? = some n → sel[ax]? = some t → ∃ r, Slice.reslice t n s e = .ok r ∧
      selPos n r = .ok ((ps.drop s).take (e - s)) ∧ FileSel.isList r = FileSel.isList t) :
    ∃ D', readPart G sel ax D (s, e) = .ok D' ∧ D'.shape = D.shape ∧ ∀ i, InShape i D.shape →
      D'.val i = if s ≤ i.getD ax 0 ∧ i.getD ax 0 < e then G.val (coords pss i) else D.val i := by
  have hpl := h.2.1
  have hsl : ax < sel.length := by rw [h.1]; exact hax
  obtain ⟨r, r1, r2, r3⟩ := hre _ _ (List.getElem?_eq_getElem hax) (List.getElem?_eq_getElem hsl)
  have hP := h.set ax _ (List.getElem?_eq_getElem hax) r _ r2
  have hcount : (sel.set ax r).countP FileSel.isList ≤ 1 := by
    rw [countP_map_id, map_set_same _ _ _ _ _ (List.getElem?_eq_getElem hsl) r3, ← countP_map_id]
    exact hc
  unfold readPart
  rw [List.getElem?_eq_getElem hax, List.getElem?_eq_getElem hsl]
  simp only
  rw [r1]
  simp only [ofSlice]
  rw [h5Read_ok G _ _ hP hcount]
  simp only [writePart]
  have hn : D.shape.getD ax 0 = ps.length := by
    rw [hD, List.getD_eq_getElem?_getD, List.getElem?_map, hps]; rfl
  rw [hn, if_pos]
  · refine ⟨_, rfl, rfl, fun i hi => ?_⟩
    simp only
    split
    · next hin =>
      have hil : i.length = pss.length := by rw [hi.length, hD, List.length_map]
      have hpp : ps = pss[ax] := by
        rw [List.getElem?_eq_getElem (by omega)] at hps
        exact (Option.some.inj hps).symm
      have hmod : (i.modify ax (· - s)).getD ax 0 = i.getD ax 0 - s := by
        rw [List.getD_eq_getElem?_getD, List.getElem?_modify, List.getD_eq_getElem?_getD]
        rw [List.getElem?_eq_getElem (by omega)]
        simp
      show G.val (coords (pss.set ax ((ps.drop s).take (e - s))) (i.modify ax (· - s))) = _
      rw [hpp, coords_part pss ax s (e - s) (by omega) _ (by simpa using hil) (by rw [hmod]; omega)]
      congr 2
      apply List.ext_getElem
      · simp
      · intro k h1 h2
        simp only [List.getElem_modify]
        split
        · next ek =>
          subst ek
          have : i.getD ax 0 = i[ax] := by rw [List.getD_eq_getElem?_getD, List.getElem?_eq_getElem h2]; rfl
          omega
        · rfl
    · rfl
  · show (pss.set ax ((ps.drop s).take (e - s))).map List.length = _
    rw [hD, List.map_set]
    congr 1
    simp
    omega

/-- All partitions. -/
theorem readParts_ok (G : NArr α) (sel : List FileSel) (pss : List (List Nat)) (h : PosAll G.shape sel pss)
    (hc : sel.countP FileSel.isList ≤ 1) (ax : Nat) (hax : ax < G.shape.length) (ps : List Nat) (hps : pss[ax]? = some ps)
    (parts : List (Nat × Nat)) (t : Nat) (hcov : PartIO.CoversFrom t ps.length parts)
    (hre : ∀ s e, (s, e) ∈ parts → s ≤ e → e ≤ ps.length → ∀ n t, G.shape[ax]? = some n → sel[ax]? = some t →
      ∃ r, Slice.reslice t n s e = .ok r ∧
      selPos n r = .ok ((ps.drop s).take (e - s)) ∧ FileSel.isList r = FileSel.isList t)
    (D : NArr α) (hD : D.shape = pss.map List.length)
    (hdone : ∀ i, InShape i D.shape → i.getD ax 0 < t → D.val i = G.val (coords pss i)) :
    ∃ D', parts.foldlM (readPart G sel ax) D = .ok D' ∧ D'.shape = D.shape ∧
      ∀ i, InShape i D.shape → D'.val i = G.val (coords pss i) := by
  have hle : ∀ (l : List (Nat × Nat)) t, PartIO.CoversFrom t ps.length l → t ≤ ps.length := by
    intro l
    induction l with
    | nil => intro t h; exact Nat.le_of_eq h
    | cons x l ih =>
      intro t h
      obtain ⟨s, e⟩ := x
      obtain ⟨h1, h2, h3⟩ := h
      have := ih e h3
      omega
  induction parts generalizing t D with
  | nil =>
    refine ⟨D, rfl, rfl, fun i hi => hdone i hi ?_⟩
    have ht : t = ps.length := hcov
    have hlt : ax < D.shape.length := by rw [hD, List.length_map, h.2.1]; exact hax
    obtain ⟨g1, g2⟩ := Dist.InShape.get hi ax hlt
    have hn : D.shape[ax] = ps.length := by
      obtain ⟨w1, w2⟩ := List.getElem?_eq_some_iff.1 hps
      simp only [hD, List.getElem_map, w2]
    rw [List.getD_eq_getElem?_getD, List.getElem?_eq_getElem g1]
    simp only [Option.getD_some]
    omega
  | cons x parts ih =>
    obtain ⟨s, e⟩ := x
    obtain ⟨rfl, hse, hcov⟩ := hcov
    have he := hle parts e hcov
    obtain ⟨D1, d1, d2, d3⟩ := readPart_ok G sel pss h hc ax hax s e hse D hD ps hps he
      (fun n t' hn ht => hre s e List.mem_cons_self hse he n t' hn ht)
    rw [List.foldlM_cons, d1]
    obtain ⟨D', f1, f2, f3⟩ := ih e hcov (fun s' e' hm => hre s' e' (List.mem_cons_of_mem _ hm)) D1 (by rw [d2, hD])
      (fun i hi hlt => by
        rw [d2] at hi
        rw [d3 i hi]
        split
        · rfl
        · next hn => exact hdone i hi (by omega))
    refine ⟨D', f1, by rw [f2, d2], fun i hi => f3 i (by rw [d2]; exact hi)⟩

/-- A block of the selected array. -/
theorem block_of_coords (G R : NArr α) (pss : List (List Nat)) (hR : Selected G pss R) (a : Nat) (c : Comm)
    (ha : a < pss.length) (hc : c.rank < c.size) (junk : List Nat → α) (D : NArr α)
    (hs : D.shape = (Proto.newMArr (pss.map List.length) a c junk).arr.shape)
    (hD : ∀ i, InShape i D.shape → D.val i =
      G.val (coords (pss.set a ((pss[a].drop (blockStart pss[a].length c.size c.rank)).take
        (blockLen pss[a].length c.size c.rank))) i)) :
    IsBlock R a c { Proto.newMArr (pss.map List.length) a c junk with arr := D } := by
  obtain ⟨G0, hG0, hB⟩ := Proto.newMArr_block (pss.map List.length) a c junk (by simpa using ha) hc
  have hsh : G0.shape = R.shape := by rw [hG0, hR.shape]
  have hN : R.shape.getD a 0 = pss[a].length := by
    rw [hR.shape, List.getD_eq_getElem?_getD, List.getElem?_map, List.getElem?_eq_getElem ha]; rfl
  have hsD : D.shape = R.shape.set a (blockLen (R.shape.getD a 0) c.size c.rank) := by
    rw [hs, hB.shape, hsh]
  refine ⟨by rw [hR.shape]; simpa using ha, hc, rfl, rfl, by rw [hR.shape]; rfl, hsD, ?_, ?_, fun i hi => ?_⟩
  · show (Proto.newMArr (pss.map List.length) a c junk).lshape = D.shape
    rw [hs, hB.lshape]
  · show (Proto.newMArr (pss.map List.length) a c junk).loff = _
    rw [hB.loff, hsh]
  · have hi' : InShape i D.shape := hi
    show D.val i = _
    rw [hD i hi']
    have hshift : InShape (i.modify a (· + blockStart (R.shape.getD a 0) c.size c.rank)) R.shape := by
      rw [hsD] at hi'
      exact Dist.inShape_shift hi' (Mpi.block_le _ _ hc)
    rw [hR.elems _ (coords pss (i.modify a (· + blockStart (R.shape.getD a 0) c.size c.rank))) hshift
      (coords_spec _ _ (by rw [← hR.shape]; exact hshift))]
    have hil : i.length = pss.length := by rw [hi'.length, hsD, List.length_set, hR.shape, List.length_map]
    congr 1
    rw [hN, coords_part pss a _ _ ha i hil]
    rw [hsD] at hi'
    obtain ⟨g1, g2⟩ := Dist.InShape.get hi' a (by rw [List.length_set, hR.shape]; simpa using ha)
    rw [List.getElem_set_self, hN] at g2
    rw [List.getD_eq_getElem?_getD, List.getElem?_eq_getElem g1]
    exact g2

end Verif.Load
