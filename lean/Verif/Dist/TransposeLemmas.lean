import Verif.Dist.Lemmas

/-!
# Lemmas about `transpose`
-/
namespace Verif.Dist

open Verif.Mpi (blockStart blockLen)
open Verif.Reshape (InShape)

variable {α : Type}

theorem Names.norm {n k : Nat} {i : Int} (h : Names n i k) : normAxis n i = .ok k := by
  obtain ⟨hk, h | h⟩ := h
  · subst h
    unfold normAxis
    rw [if_pos (by omega), if_neg (by omega)]
    simp
  · subst h
    unfold normAxis
    rw [if_pos (by omega), if_pos (by omega)]
    congr 1
    omega

theorem norm_names {n k : Nat} {i : Int} (h : normAxis n i = .ok k) : Names n i k := by
  unfold normAxis at h
  split at h
  · have := Except.ok.inj h
    unfold Names
    split at this <;> omega
  · simp at h

theorem Names.get {β : Type} {n k : Nat} {i : Int} (h : Names n i k) (l : List β) (hl : l.length = n) :
    ∃ hk : k < l.length, pyGet l i = .ok l[k] := by
  obtain ⟨hk, h | h⟩ := h
  · subst h
    exact ⟨by omega, pyGet_nat l k (by omega)⟩
  · obtain ⟨h1, h2⟩ := pyGet_neg l i (by omega) (by omega)
    have : (i + l.length).toNat = k := by omega
    simp only [this] at h1 h2
    exact ⟨h1, h2⟩

theorem mapM_norm {n : Nat} (l : List Int) (p : List Nat) :
    l.mapM (normAxis n) = .ok p ↔ List.Forall₂ (Names n) l p := by
  induction l generalizing p with
  | nil => simp [pure, Except.pure, eq_comm]
  | cons i l ih =>
    rw [List.mapM_cons]
    constructor
    · intro h
      cases h1 : normAxis n i with
      | error e => rw [h1] at h; simp [bind, Except.bind] at h
      | ok k =>
        cases h2 : l.mapM (normAxis n) with
        | error e => rw [h1, h2] at h; simp [bind, Except.bind] at h
        | ok q =>
          rw [h1, h2] at h
          simp [bind, Except.bind, pure, Except.pure] at h
          subst h
          exact .cons (norm_names h1) ((ih q).1 h2)
    · intro h
      cases h with
      | cons h1 h2 =>
        rw [h1.norm, (ih _).2 h2]
        rfl

theorem mapM_get {β : Type} {n : Nat} (l : List Int) (p : List Nat) (h : List.Forall₂ (Names n) l p)
    (s : List β) (hs : s.length = n) (d : β) : l.mapM (pyGet s) = .ok (p.map (s.getD · d)) := by
  induction h with
  | nil => rfl
  | cons h1 _ ih =>
    obtain ⟨hk, h2⟩ := h1.get s hs
    rw [List.mapM_cons, h2, ih]
    simp [bind, Except.bind, pure, Except.pure, List.getElem?_eq_getElem hk]

theorem perm_range {n : Nat} {p : List Nat} (hp : p.Nodup) (hl : p.length = n) (hb : ∀ k ∈ p, k < n) :
    ∀ k, k < n → k ∈ p := by
  intro k hk
  have hsub : p ⊆ List.range n := fun x hx => List.mem_range.2 (hb x hx)
  have h1 : p.Perm (List.range n) := (List.subperm_of_subset hp hsub).perm_of_length_le (by simp [hl])
  exact h1.mem_iff.2 (List.mem_range.2 hk)

/-- The permuted array of the model of `numpy` is transposed in the sense of the specification. -/
theorem permute_isTransposed (G : NArr α) (p : List Nat) (hp : p.Nodup) (hl : p.length = G.shape.length)
    (hb : ∀ k ∈ p, k < G.shape.length) : IsTransposed p G (permute G p) := by
  refine ⟨rfl, fun i i' hi hl' hj => ?_⟩
  unfold permute
  simp only
  congr 1
  have hil := hi.length
  apply List.ext_getElem
  · simp [hil]
  · intro k h1 h2
    simp only [List.getElem_map, List.getElem_range]
    have hkp : k ∈ p := perm_range hp hl hb k (by omega)
    have hlt := List.idxOf_lt_length_iff.2 hkp
    have h3 := hj (p.idxOf k) k (by rw [List.getElem?_eq_getElem hlt, List.getElem_idxOf hlt])
    rw [List.getD_eq_getElem?_getD, h3, List.getElem?_eq_getElem h2]
    rfl

/-- What the call does once `numpy` has accepted the axes. -/
theorem transpose_core (G : NArr α) (a : Nat) (c : Comm) (A : MArr α) (hA : IsBlock G a c A)
    (l : List Int) (p : List Nat) (h : List.Forall₂ (Names G.shape.length) l p) (hp : p.Nodup)
    (hl : p.length = G.shape.length) (arg : AxesArg) (ha : npTranspose A.arr (npAxes arg) = .ok (permute A.arr p))
    (hown : ownAxes A.arr.shape.length arg = .ok l) :
    (∀ b, l.idxOf? (a : Int) = some b → ∃ B, transpose A arg = .ok B ∧ p[b]? = some a ∧
      ∀ G', IsTransposed p G G' → IsBlock G' b c B) ∧
    (l.idxOf? (a : Int) = none → transpose A arg = .error .valueError) := by
  have hlt := hA.lt
  have hAl : A.arr.shape.length = G.shape.length := by rw [hA.shape]; simp
  have hfin : ∃ v, finalize A A.arr.shape (permute A.arr p) = .ok v := by
    unfold finalize
    rw [hA.axis, pyGet_nat _ a (by rw [hA.gshape]; exact hlt)]
    simp only [bind, Except.bind]
    rw [pySet_nat _ _ _ (by omega), pySet_nat _ _ _ (by simp; omega)]
    exact ⟨_, rfl⟩
  obtain ⟨v, hv⟩ := hfin
  have e : ∀ o, l.idxOf? (a : Int) = o → transpose A arg = (match o with
      | Option.none => .error .valueError
      | some b => .ok
        { arr := permute A.arr p, gshape := p.map (A.gshape.getD · 0), axis := b,
          lshape := p.map (A.lshape.getD · 0), loff := p.map (A.loff.getD · 0), comm := A.comm }) := by
    intro o ho
    unfold transpose
    rw [ha, hown]
    simp only [bind, Except.bind]
    rw [hv]
    simp only
    rw [mapM_get l p h A.gshape (by rw [hA.gshape]) 0]
    simp only
    rw [mapM_get l p h A.lshape (by rw [hA.lshape, hAl]) 0]
    simp only
    rw [mapM_get l p h A.loff (by rw [hA.loff]; simp) 0]
    simp only
    rw [hA.axis, ho]
    rfl
  constructor
  · intro b hb
    refine ⟨_, e _ hb, ?_⟩
    have hbl : ∃ hb' : b < l.length, l[b] = (a : Int) := by
      rw [List.idxOf?_eq_some_iff] at hb
      obtain ⟨h1, h2, -⟩ := hb
      exact ⟨h1, by simpa using h2⟩
    obtain ⟨hb1, hb2⟩ := hbl
    have hb3 : b < p.length := by rw [← h.length_eq]; exact hb1
    have hnm : Names G.shape.length l[b] p[b] := by simpa using List.Forall₂.get h hb1 hb3
    have hpb : p[b] = a := by
      obtain ⟨h1, h2⟩ := hnm
      omega
    have hmem : ∀ k ∈ p, k < G.shape.length := by
      intro k hk
      obtain ⟨j, hj, rfl⟩ := List.mem_iff_getElem.1 hk
      have hj' : j < l.length := by rw [h.length_eq]; exact hj
      have : Names G.shape.length l[j] p[j] := by simpa using List.Forall₂.get h hj' hj
      exact this.1
    refine ⟨by rw [List.getElem?_eq_getElem hb3, hpb], fun G' hG' => ?_⟩
    have hN : G'.shape.getD b 0 = G.shape.getD a 0 := by
      rw [hG'.shape, List.getD_eq_getElem?_getD, List.getElem?_map, List.getElem?_eq_getElem hb3, hpb]
      rfl
    refine ⟨?_, hA.rank, hA.comm, rfl, ?_, ?_, ?_, ?_, ?_⟩
    · rw [hG'.shape]; simpa using hb3
    · simp only [hA.gshape, hG'.shape]
    · rw [hN, hG'.shape]
      simp only [permute]
      apply List.ext_getElem
      · simp
      · intro j h1 h2
        have hj : j < p.length := by simpa using h1
        have hk := hmem p[j] (List.getElem_mem hj)
        simp only [List.getElem_map, List.getElem_set, hA.shape]
        by_cases hjb : b = j
        · subst hjb
          rw [if_pos rfl, hpb, getD_set_self _ _ _ (hpb ▸ hk)]
        · rw [if_neg hjb, getD_set_ne]
          exact fun h => hjb ((hp.getElem_inj_iff (hi := hb3) (hj := hj)).1 (by rw [hpb, h]))
    · simp only [permute, hA.lshape]
    · rw [hN, hG'.shape]
      simp only [hA.loff]
      apply List.ext_getElem
      · simp
      · intro j h1 h2
        have hj : j < p.length := by simpa using h1
        have hk := hmem p[j] (List.getElem_mem hj)
        simp only [List.getElem_map, List.getElem_set, List.getElem_replicate]
        by_cases hjb : b = j
        · subst hjb
          rw [if_pos rfl, hpb, getD_set_self _ _ _ (by simpa using hpb ▸ hk)]
        · rw [if_neg hjb, getD_set_ne _ _ (fun h => hjb ((hp.getElem_inj_iff (hi := hb3) (hj := hj)).1 (by
            rw [hpb, h])))]
          rw [List.getD_eq_getElem _ _ (by simpa using hk)]
          simp
    · intro i' hi'
      simp only [permute] at hi' ⊢
      have hil : i'.length = p.length := by rw [hi'.length]; simp
      have hin : ∀ k, k < G.shape.length → ∃ hk : p.idxOf k < p.length, p[p.idxOf k] = k := by
        intro k hk
        have := List.idxOf_lt_length_iff.2 (perm_range hp hl hmem k hk)
        exact ⟨this, List.getElem_idxOf this⟩
      have hin2 : InShape ((List.range A.arr.shape.length).map fun (k : Nat) => i'.getD (p.idxOf k) 0)
          A.arr.shape := by
        apply inShape_of
        · simp
        · intro k h1 h2
          obtain ⟨hk, hk2⟩ := hin k (by omega)
          obtain ⟨hx, hx2⟩ := InShape.get hi' (p.idxOf k) (by simpa using hk)
          simp only [List.getElem_map, List.getElem_range]
          rw [List.getD_eq_getElem _ _ hx]
          simp only [List.getElem_map, hk2] at hx2
          rwa [List.getD_eq_getElem _ _ h2] at hx2
      rw [hA.elems _ hin2, hN]
      have hst := Mpi.block_le (G.shape.getD a 0) c.size (r := c.rank)
      symm
      have hr := hA.rank
      · apply hG'.elems
        · exact inShape_shift (by rw [← hA.shape]; exact hin2) (hst hr)
        · simp [hil]
        · intro j k hjk
          obtain ⟨hj, hjk⟩ := List.getElem?_eq_some_iff.1 hjk
          have hk : k < G.shape.length := hmem k (hjk ▸ List.getElem_mem hj)
          have hidx : p.idxOf k = j := by
            obtain ⟨h1, h2⟩ := hin k hk
            exact (hp.getElem_inj_iff (hi := h1) (hj := hj)).1 (by rw [h2, hjk])
          have e1 : j < (i'.modify b (· + blockStart (G.shape.getD a 0) c.size c.rank)).length := by
            simp; omega
          have e2 : k < (((List.range A.arr.shape.length).map fun (k : Nat) => i'.getD (p.idxOf k) 0).modify a
              (· + blockStart (G.shape.getD a 0) c.size c.rank)).length := by simp; omega
          rw [List.getElem?_eq_getElem e1, List.getElem?_eq_getElem e2]
          simp only [List.getElem_modify, List.getElem_map, List.getElem_range, hidx]
          rw [List.getD_eq_getElem i' 0 (show j < i'.length by omega)]
          by_cases hjb : b = j
          · subst hjb
            rw [if_pos rfl, if_pos (by omega)]
          · rw [if_neg hjb, if_neg (fun h => hjb ((hp.getElem_inj_iff (hi := hb3) (hj := hj)).1 (by
              rw [hpb, hjk, h])))]
  · intro hb
    exact e _ hb

end Verif.Dist
