import Verif.Proto.Spec
import Verif.Dist.UfuncLemmas

/-!
# Helper lemmas for container construction
-/
namespace Verif.Proto

open Verif.Dist (NArr MArr Comm IsBlock)
open Verif.Mpi (blockStart blockLen)
open Verif.Reshape (InShape)

variable {α β V Ty : Type}

theorem put_self {γ : Type} (d : String → Option γ) (k : String) (v : γ) : put d k v k = some v := by
  simp [put]

theorem put_ne {γ : Type} (d : String → Option γ) {k k' : String} (v : γ) (h : k' ≠ k) : put d k v k' = d k' := by
  simp [put, h]

/-! ### Arrays -/

theorem bcast_same (s : List Nat) : Dist.bcast [s, s] = some s := by
  rw [Dist.bcast_iff]
  have hm : Dist.maxDim [s, s] = s.length := Dist.maxDim_eq _ _ ⟨s, by simp, rfl⟩ (by simp)
  refine ⟨hm.symm, fun k hk => ?_⟩
  rw [hm, Dist.bdim_iff]
  have h4 : [s, s].filterMap (fun t => Dist.dimAt s.length t k) = [s[k], s[k]] := by
    simp [Dist.dimAt, List.getElem?_eq_getElem hk]
  rw [h4]
  simp

theorem bidx_same {s i : List Nat} (h : InShape i s) : Dist.bidx s i = i := by
  have hl := h.length
  apply List.ext_getElem
  · rw [Dist.bidx_length _ _ (by omega)]; omega
  · intro k h1 h2
    rw [Dist.bidx_get s i (by omega) k (by omega)]
    have hk := Dist.InShape.get h k (by omega)
    have hz : i.length - s.length + k = k := by omega
    split
    · obtain ⟨_, hk⟩ := hk
      omega
    · simp only [hz]

/-- Assignment of an array of the same shape. -/
theorem npAssign_same (f : α → α) (dst src : NArr α) (h : src.shape = dst.shape) :
    ∃ A, npAssign f dst src = .ok A ∧ A.shape = dst.shape ∧ ∀ i, InShape i dst.shape → A.val i = f (src.val i) := by
  unfold npAssign
  simp only [h, Nat.sub_self, List.take_zero, List.all_nil, List.drop_zero, bcast_same, and_self, if_true,
    List.replicate_zero, List.nil_append]
  refine ⟨_, rfl, rfl, fun i hi => ?_⟩
  simp only [bidx_same hi]

theorem newMArr_block (shape : List Nat) (k : Nat) (c : Comm) (junk : List Nat → α) (hk : k < shape.length)
    (hc : c.rank < c.size) : ∃ G, G.shape = shape ∧ IsBlock G k c (newMArr shape k c junk) := by
  refine ⟨⟨shape, fun i => junk (i.modify k (· - blockStart (shape.getD k 0) c.size c.rank))⟩, rfl, ?_⟩
  have h1 : (newMArr shape k c junk).arr.shape = shape.set k (blockLen (shape.getD k 0) c.size c.rank) := by
    simp only [newMArr, Split.splitLocal_ok _ c.size c.rank hc]
    rfl
  refine ⟨hk, hc, rfl, rfl, rfl, h1, rfl, ?_, ?_⟩
  · simp only [newMArr, Dist.localStart_eq _ c hc]
  · intro i hi
    simp only [newMArr]
    congr 1
    apply List.ext_getElem
    · simp
    · intro j h1 h2
      simp only [List.getElem_modify]
      split <;> omega

/-! ### Axes -/

/-- The axis loop. -/
theorem axes_fold (E : Env α β V Ty) (a : Args α β V) (axes : List String) (b c : Box α β V)
    (h : axes.foldlM (addAxis E a) b = .ok c) :
    c.dsets = b.dsets ∧ c.attrs = b.attrs ∧
    (∀ ax, ax ∉ axes → c.maps ax = b.maps ax ∧ c.mapAttrs ax = b.mapAttrs ax) ∧
    (∀ ax ∈ axes, ∃ m, c.maps ax = some m ∧ AxisIs E.lab a.kw a.axesSrc ax m.vals) := by
  induction axes generalizing b with
  | nil =>
    obtain rfl := Except.ok.inj h
    simp
  | cons x axes ih =>
    rw [List.foldlM_cons] at h
    cases h1 : addAxis E a b x with
    | error e => rw [h1] at h; cases h
    | ok b' =>
      rw [h1] at h
      obtain ⟨i1, i2, i3, i4⟩ := ih b' h
      have hx : b'.dsets = b.dsets ∧ b'.attrs = b.attrs ∧
          (∀ ax, ax ≠ x → b'.maps ax = b.maps ax ∧ b'.mapAttrs ax = b.mapAttrs ax) ∧
          ∃ m, b'.maps x = some m ∧ AxisIs E.lab a.kw a.axesSrc x m.vals := by
        unfold addAxis at h1
        cases hk : a.kw x with
        | some v =>
          rw [hk] at h1
          cases v with
          | int n =>
            obtain rfl := Except.ok.inj h1
            exact ⟨rfl, rfl, fun ax hax => ⟨put_ne _ _ hax, rfl⟩, _, put_self _ _ _, .count n hk⟩
          | arr m =>
            obtain rfl := Except.ok.inj h1
            exact ⟨rfl, rfl, fun ax hax => ⟨put_ne _ _ hax, rfl⟩, _, put_self _ _ _, .given m hk⟩
          | list l => cases h1
          | none => cases h1
        | none =>
          rw [hk] at h1
          simp only at h1
          cases hs : a.axesSrc with
          | none => rw [hs] at h1; cases h1
          | some src =>
            rw [hs] at h1
            simp only at h1
            cases hm : src.maps x with
            | none => rw [hm] at h1; cases h1
            | some m =>
              rw [hm] at h1
              obtain rfl := Except.ok.inj h1
              refine ⟨rfl, rfl, fun ax hax => ⟨put_ne _ _ hax, ?_⟩, m, put_self _ _ _, .copied src m hk rfl hm⟩
              simp [hax]
      obtain ⟨j1, j2, j3, m, j4, j5⟩ := hx
      refine ⟨by rw [i1, j1], by rw [i2, j2], fun ax hax => ?_, fun ax hax => ?_⟩
      · obtain ⟨k1, k2⟩ := i3 ax (fun h => hax (List.mem_cons_of_mem _ h))
        obtain ⟨l1, l2⟩ := j3 ax (fun h => hax (h ▸ List.mem_cons_self))
        exact ⟨by rw [k1, l1], by rw [k2, l2]⟩
      · by_cases hr : ax ∈ axes
        · exact i4 ax hr
        · rcases List.mem_cons.1 hax with rfl | h
          · exact ⟨m, by rw [(i3 _ hr).1, j4], j5⟩
          · exact absurd h hr

/-- The axis loop succeeds when all axes are defined. -/
theorem axes_ok (E : Env α β V Ty) (a : Args α β V) (axes : List String) (b : Box α β V)
    (h : ∀ ax ∈ axes, ∃ l, AxisIs E.lab a.kw a.axesSrc ax l) : ∃ c, axes.foldlM (addAxis E a) b = .ok c := by
  induction axes generalizing b with
  | nil => exact ⟨b, rfl⟩
  | cons x axes ih =>
    obtain ⟨l, hl⟩ := h x List.mem_cons_self
    have hx : ∃ b', addAxis E a b x = .ok b' := by
      unfold addAxis
      cases hl with
      | count n hk => rw [hk]; exact ⟨_, rfl⟩
      | given m hk => rw [hk]; exact ⟨_, rfl⟩
      | copied s m hk hs hm =>
        rw [hk]
        simp only
        rw [hs]
        simp only
        rw [hm]
        exact ⟨_, rfl⟩
    obtain ⟨b', hb⟩ := hx
    rw [List.foldlM_cons, hb]
    exact ih b' fun ax hax => h ax (List.mem_cons_of_mem _ hax)

/-! ### Datasets -/

theorem lengths_iff (b : Box α β V) (axes : List AxisRef) (shape : List Nat) :
    axes.mapM (axisLen b) = .ok shape ↔ Lengths b.maps axes shape := by
  unfold Lengths
  induction axes generalizing shape with
  | nil =>
    simp only [List.mapM_nil, List.forall₂_nil_left_iff]
    exact ⟨fun h => (Except.ok.inj h).symm, fun h => by rw [h]; rfl⟩
  | cons x axes ih =>
    rw [List.mapM_cons, List.forall₂_cons_left_iff]
    constructor
    · intro h
      cases h1 : axisLen b x with
      | error e => rw [h1] at h; cases h
      | ok n =>
        rw [h1] at h
        cases h2 : axes.mapM (axisLen b) with
        | error e => rw [h2] at h; cases h
        | ok s =>
          rw [h2] at h
          refine ⟨n, s, ?_, (ih s).1 h2, (Except.ok.inj h).symm⟩
          cases x with
          | size k =>
            simp only [axisLen, Except.ok.injEq] at h1
            exact h1.symm
          | name t =>
            simp only [axisLen] at h1 ⊢
            cases hm : b.maps t with
            | none => rw [hm] at h1; cases h1
            | some m =>
              rw [hm] at h1
              exact ⟨m, rfl, Except.ok.inj h1⟩
    · rintro ⟨n, s, hx, hs, rfl⟩
      have h1 : axisLen b x = .ok n := by
        cases x with
        | size k =>
          simp only at hx
          simp [axisLen, hx]
        | name t =>
          obtain ⟨m, hm, rfl⟩ := hx
          simp [axisLen, hm]
      rw [h1, (ih s).2 hs]
      rfl

theorem distAt_iff (d : DSpec Ty) (k : Nat) : distAxisOf d = .ok k ↔ DistAt d k := by
  unfold distAxisOf DistAt
  cases h : d.distAxis.or d.axes.head? with
  | none =>
    constructor
    · intro h; cases h
    · rintro ⟨h1, h2, -⟩
      rw [List.getElem?_eq_getElem h2] at h1
      cases h1
  | some x =>
    simp only
    have hidx : ∀ k, d.axes.idxOf? x = some k ↔ d.axes[k]? = some x ∧ k < d.axes.length ∧ ∀ j < k, d.axes[j]? ≠ some x := by
      intro k
      rw [List.idxOf?, List.findIdx?_eq_some_iff_getElem]
      constructor
      · rintro ⟨h1, h2, h3⟩
        refine ⟨by rw [List.getElem?_eq_getElem h1]; simpa using h2, h1, fun j hj hx => ?_⟩
        have := h3 j hj
        rw [List.getElem?_eq_getElem (by omega)] at hx
        simp at hx this
        exact this hx
      · rintro ⟨h1, h2, h3⟩
        refine ⟨h2, ?_, fun j hj => ?_⟩
        · rw [List.getElem?_eq_getElem h2] at h1
          simpa using h1
        · have := h3 j hj
          rw [List.getElem?_eq_getElem (by omega)] at this
          simpa using this
    rw [← hidx]
    cases hi : d.axes.idxOf? x with
    | none => simp
    | some j => simp

/-- What `add_dataset` does. -/
theorem addDataset_ok (E : Env α β V Ty) (a : Args α β V) (b b' : Box α β V) (name : String) (d : DSpec Ty)
    (hc : a.comm.rank < a.comm.size) (h : addDataset E a b name d = .ok b') :
    b'.maps = b.maps ∧ b'.mapAttrs = b.mapAttrs ∧ b'.attrs = b.attrs ∧
    (∀ n, n ≠ name → b'.dsets n = b.dsets n) ∧
    ∃ x, b'.dsets name = some x ∧ Specified b.maps a.distributed a.comm d x ∧ x.attrs = (fun _ => none) ∧
      ∀ A, x.data = .common A → ∀ i, A.val i = E.zero := by
  unfold addDataset at h
  cases h1 : d.axes.mapM (axisLen b) with
  | error e => rw [h1] at h; cases h
  | ok shape =>
    rw [h1] at h
    cases h2 : distAxisOf d with
    | error e => rw [h2] at h; cases h
    | ok k =>
      rw [h2] at h
      simp only [bind, Except.bind, pure, Except.pure, Except.ok.injEq] at h
      subst h
      have hL := (lengths_iff b d.axes shape).1 h1
      have hk := (distAt_iff d k).1 h2
      refine ⟨rfl, rfl, rfl, fun n hn => put_ne _ _ hn, _, put_self _ _ _, ⟨rfl, shape, hL, ?_⟩, rfl, ?_⟩
      · have hlen : k < shape.length := by
          have := hL.length_eq
          have := hk.2.1
          omega
        by_cases hd : a.distributed = true ∧ d.distributed ≠ some false
        · rw [if_pos hd]
          have hcond : (a.distributed && d.distributed.getD true) = true := by
            obtain ⟨hd1, hd2⟩ := hd
            rw [hd1]
            cases h3 : d.distributed with
            | none => rfl
            | some v => cases v with
              | false => exact absurd h3 hd2
              | true => rfl
          obtain ⟨G, hG1, hG2⟩ := newMArr_block shape k a.comm (E.junk name) hlen hc
          refine ⟨k, _, G, hk, ?_, hG1, hG2⟩
          simp only [hcond, if_true]
        · rw [if_neg hd]
          have hcond : (a.distributed && d.distributed.getD true) = false := by
            cases h3 : a.distributed with
            | false => rfl
            | true =>
              cases h4 : d.distributed with
              | none => exact absurd ⟨h3, by rw [h4]; simp⟩ hd
              | some v => cases v with
                | false => rfl
                | true => exact absurd ⟨h3, by rw [h4]; simp⟩ hd
          exact ⟨⟨shape, fun _ => E.zero⟩, by simp [hcond], rfl⟩
      · intro A hA i
        simp only at hA
        split at hA
        · cases hA
        · cases hA
          rfl

/-- `add_dataset` succeeds when the axes are defined and the distributed axis is one of them. -/
theorem addDataset_accepts (E : Env α β V Ty) (a : Args α β V) (b : Box α β V) (name : String) (d : DSpec Ty)
    (shape : List Nat) (hL : Lengths b.maps d.axes shape) (k : Nat) (hk : DistAt d k) :
    ∃ b', addDataset E a b name d = .ok b' := by
  unfold addDataset
  rw [(lengths_iff b d.axes shape).2 hL, (distAt_iff d k).2 hk]
  exact ⟨_, rfl⟩

/-- A loop over datasets of which each pass concerns only one. -/
theorem fold_local (f : Box α β V → String × DSpec Ty → Except PyErr (Box α β V))
    (hf : ∀ b nd b', f b nd = .ok b' → b'.maps = b.maps ∧ b'.mapAttrs = b.mapAttrs ∧ b'.attrs = b.attrs ∧
      ∀ n, n ≠ nd.1 → b'.dsets n = b.dsets n)
    (l : List (String × DSpec Ty)) (hl : (l.map (·.1)).Nodup) (b c : Box α β V) (h : l.foldlM f b = .ok c) :
    c.maps = b.maps ∧ c.mapAttrs = b.mapAttrs ∧ c.attrs = b.attrs ∧
    (∀ n, n ∉ l.map (·.1) → c.dsets n = b.dsets n) ∧
    ∀ nd ∈ l, ∃ b1 b2, f b1 nd = .ok b2 ∧ b1.maps = b.maps ∧ b1.dsets nd.1 = b.dsets nd.1 ∧
      c.dsets nd.1 = b2.dsets nd.1 := by
  induction l generalizing b with
  | nil =>
    obtain rfl := Except.ok.inj h
    simp
  | cons x l ih =>
    rw [List.foldlM_cons] at h
    cases h1 : f b x with
    | error e => rw [h1] at h; cases h
    | ok b' =>
      rw [h1] at h
      rw [List.map_cons, List.nodup_cons] at hl
      obtain ⟨i1, i2, i3, i4, i5⟩ := ih hl.2 b' h
      obtain ⟨j1, j2, j3, j4⟩ := hf _ _ _ h1
      refine ⟨by rw [i1, j1], by rw [i2, j2], by rw [i3, j3], fun n hn => ?_, fun nd hnd => ?_⟩
      · rw [List.map_cons, List.mem_cons, not_or] at hn
        rw [i4 n hn.2, j4 n hn.1]
      · rcases List.mem_cons.1 hnd with rfl | hnd
        · exact ⟨b, b', h1, rfl, rfl, i4 _ hl.1⟩
        · obtain ⟨b1, b2, k1, k2, k3, k4⟩ := i5 nd hnd
          refine ⟨b1, b2, k1, by rw [k2, j1], ?_, k4⟩
          rw [k3, j4 _ ?_]
          rintro he
          exact hl.1 (he ▸ List.mem_map_of_mem hnd)

/-- Such a loop succeeds if each pass does. -/
theorem fold_ok (f : Box α β V → String × DSpec Ty → Except PyErr (Box α β V))
    (hf : ∀ b nd b', f b nd = .ok b' → b'.maps = b.maps ∧ b'.mapAttrs = b.mapAttrs ∧ b'.attrs = b.attrs ∧
      ∀ n, n ≠ nd.1 → b'.dsets n = b.dsets n)
    (l : List (String × DSpec Ty)) (hl : (l.map (·.1)).Nodup) (b : Box α β V)
    (h : ∀ nd ∈ l, ∀ b1, b1.maps = b.maps → b1.dsets nd.1 = b.dsets nd.1 → ∃ b2, f b1 nd = .ok b2) :
    ∃ c, l.foldlM f b = .ok c := by
  induction l generalizing b with
  | nil => exact ⟨b, rfl⟩
  | cons x l ih =>
    rw [List.map_cons, List.nodup_cons] at hl
    obtain ⟨b', hb⟩ := h x List.mem_cons_self b rfl rfl
    obtain ⟨j1, j2, j3, j4⟩ := hf _ _ _ hb
    rw [List.foldlM_cons, hb]
    refine ih hl.2 b' fun nd hnd b1 h1 h2 => h nd (List.mem_cons_of_mem _ hnd) b1 (by rw [h1, j1]) ?_
    rw [h2, j4]
    rintro he
    exact hl.1 (he ▸ List.mem_map_of_mem hnd)

/-- Assignment between datasets of the same layout. -/
theorem assign_same (f : α → α) (maps : String → Option (AxisMap β)) (distributed : Bool) (c : Comm) (d : DSpec Ty)
    (x : Dset α V) (s : Data α) (hx : Specified maps distributed c d x) (hs : SameLayout maps distributed c d s) :
    ∃ y, assignAll f x.data s = .ok y ∧ Holds f c s y ∧ Specified maps distributed c d { x with data := y } := by
  obtain ⟨hax, shape, hL, hx⟩ := hx
  obtain ⟨shape', hL', hne, hs⟩ := hs
  have he : shape' = shape := by
    unfold Lengths at hL hL'
    generalize d.axes = axes at hL hL'
    clear hx hs hax hne
    induction hL generalizing shape' with
    | nil => cases hL'; rfl
    | @cons ax n axs ns h1 h2 ih =>
      cases hL' with
      | @cons _ n' _ ns' g1 g2 =>
        have hn : n' = n := by
          cases ax with
          | size k => simp only at h1 g1; rw [h1, g1]
          | name t =>
            obtain ⟨m, e1, e2⟩ := h1
            obtain ⟨m', e3, e4⟩ := g1
            rw [e1] at e3
            cases e3
            omega
        rw [hn, ih _ g2]
  subst he
  by_cases hd : distributed = true ∧ d.distributed ≠ some false
  · rw [if_pos hd] at hx hs
    obtain ⟨k, D, G, hk, hxd, hG, hB⟩ := hx
    obtain ⟨k', S, H, hk', rfl, hH, hS⟩ := hs
    obtain rfl : k' = k := by
      have := (distAt_iff d k).2 hk
      rw [(distAt_iff d k').2 hk'] at this
      exact Except.ok.inj this
    have hsh : S.arr.shape = D.arr.shape := by rw [hS.shape, hB.shape, hG, hH]
    have hne' : S.arr.shape ≠ [] := by
      rw [hS.shape, hH]
      intro h
      exact hne (by simpa using h)
    have hfin : ∀ D' : MArr α, D' = { D with arr := D'.arr } → D'.arr.shape = D.arr.shape →
        (∀ i, InShape i D.arr.shape → D'.arr.val i = f (S.arr.val i)) →
        Holds f c (.dist S) (.dist D') ∧ Specified maps distributed c d { x with data := .dist D' } := by
      intro D' h1 h2 h3
      have hblk : IsBlock ⟨H.shape, fun i => f (H.val i)⟩ k' c D' := by
        have e1 : D'.comm = D.comm := by rw [h1]
        have e2 : D'.axis = D.axis := by rw [h1]
        have e3 : D'.gshape = D.gshape := by rw [h1]
        have e4 : D'.lshape = D.lshape := by rw [h1]
        have e5 : D'.loff = D.loff := by rw [h1]
        refine ⟨hS.lt, hS.rank, by rw [e1, hB.comm], by rw [e2, hB.axis], ?_, ?_, ?_, ?_, ?_⟩
        · rw [e3, hB.gshape, hG, hH]
        · rw [h2, ← hsh, hS.shape]
        · rw [e4, h2, hB.lshape]
        · rw [e5, hB.loff, hG, hH]
        · intro i hi
          rw [h2] at hi
          rw [h3 i hi, hS.elems i (by rw [hsh]; exact hi)]
      refine ⟨.dist S D' H k' hS hblk, hax, shape', hL, ?_⟩
      rw [if_pos hd]
      exact ⟨k', D', ⟨H.shape, fun i => f (H.val i)⟩, hk, rfl, hH, hblk⟩
    unfold assignAll
    rw [if_neg (by exact hne'), hxd]
    simp only
    split
    · rename_i h0
      refine ⟨_, rfl, hfin D rfl rfl ?_⟩
      intro i hi
      exfalso
      have hax' : D.axis.toNat = k' := by rw [hB.axis]; simp
      rw [hax'] at h0
      have hlt : k' < D.arr.shape.length := by
        rw [hB.shape, List.length_set]
        exact hB.lt
      have := Dist.InShape.get hi k' hlt
      rw [List.getD_eq_getElem?_getD, List.getElem?_eq_getElem hlt] at h0
      simp only [Option.getD_some] at h0
      simp [h0] at this
    · obtain ⟨A, hA1, hA2, hA3⟩ := npAssign_same f D.arr S.arr hsh
      have : (Data.dist S).loc = S.arr := rfl
      rw [this, hA1]
      exact ⟨_, rfl, hfin _ rfl hA2 hA3⟩
  · rw [if_neg hd] at hx hs
    obtain ⟨D, hxd, hD⟩ := hx
    obtain ⟨S, rfl, hS⟩ := hs
    obtain ⟨A, hA1, hA2, hA3⟩ := npAssign_same f D S (by rw [hS, hD])
    unfold assignAll
    have hloc : (Data.common S).loc = S := rfl
    rw [hloc, if_neg (by rw [hS]; exact hne), hxd]
    simp only
    rw [if_neg (by rw [hD]; exact hne), hA1]
    refine ⟨_, rfl, .common S A (by rw [hA2, hD, hS]) (fun i hi => hA3 i (by rw [hD, ← hS]; exact hi)), hax, shape', hL, ?_⟩
    rw [if_neg hd]
    exact ⟨A, rfl, by rw [hA2, hD]⟩

end Verif.Proto

namespace Verif.Proto

open Verif.Dist (NArr MArr Comm IsBlock)
open Verif.Mpi (blockStart blockLen)
open Verif.Reshape (InShape)

variable {α β V Ty : Type}

/-- An array with the right records is a block of some global array. -/
theorem block_of_records (G : NArr α) (k : Nat) (c : Comm) (D : MArr α) (hB : IsBlock G k c D) (A : NArr α)
    (hA : A.shape = D.arr.shape) : ∃ G' : NArr α, G'.shape = G.shape ∧ IsBlock G' k c { D with arr := A } := by
  refine ⟨⟨G.shape, fun i => A.val (i.modify k (· - blockStart (G.shape.getD k 0) c.size c.rank))⟩, rfl,
    hB.lt, hB.rank, hB.comm, hB.axis, hB.gshape, by rw [← hB.shape]; exact hA, ?_, hB.loff, ?_⟩
  · exact hB.lshape.trans hA.symm
  · intro i hi
    simp only
    congr 1
    apply List.ext_getElem
    · simp
    · intro j h1 h2
      simp only [List.getElem_modify]
      split <;> omega

theorem npAssign_shape {f : α → α} {dst src A : NArr α} (h : npAssign f dst src = .ok A) : A.shape = dst.shape := by
  unfold npAssign at h
  simp only at h
  split at h
  · rw [← Except.ok.inj h]
  · cases h

/-- Assignment leaves a dataset as specified, apart from its elements. -/
theorem assign_specified (f : α → α) (maps : String → Option (AxisMap β)) (distributed : Bool) (c : Comm) (d : DSpec Ty)
    (x : Dset α V) (s y : Data α) (hx : Specified maps distributed c d x) (h : assignAll f x.data s = .ok y) :
    Specified maps distributed c d { x with data := y } := by
  obtain ⟨hax, shape, hL, hx⟩ := hx
  refine ⟨hax, shape, hL, ?_⟩
  unfold assignAll at h
  split at h
  · cases h
  · by_cases hd : distributed = true ∧ d.distributed ≠ some false
    · rw [if_pos hd] at hx ⊢
      obtain ⟨k, D, G, hk, hxd, hG, hB⟩ := hx
      rw [hxd] at h
      simp only at h
      split at h
      · rw [← Except.ok.inj h]
        exact ⟨k, D, G, hk, rfl, hG, hB⟩
      · cases hn : npAssign f D.arr s.loc with
        | error e => rw [hn] at h; cases h
        | ok A =>
          rw [hn] at h
          rw [← Except.ok.inj h]
          obtain ⟨G', h1, h2⟩ := block_of_records G k c D hB A (npAssign_shape hn)
          exact ⟨k, _, G', hk, rfl, by rw [h1, hG], h2⟩
    · rw [if_neg hd] at hx ⊢
      obtain ⟨D, hxd, hD⟩ := hx
      rw [hxd] at h
      simp only at h
      split at h
      · cases h
      · cases hn : npAssign f D s.loc with
        | error e => rw [hn] at h; cases h
        | ok A =>
          rw [hn] at h
          rw [← Except.ok.inj h]
          exact ⟨A, rfl, by rw [npAssign_shape hn, hD]⟩

theorem toCopy_iff (axes : List String) (kw : String → Option (AxisArg β)) (sd : Dset α V) (axs : List String)
    (h : sd.axis = some axs) :
    ToCopy axes kw sd ↔ axs.any ((axes.filter fun ax => (kw ax).isSome).contains ·) = false := by
  unfold ToCopy
  rw [h]
  simp only [Option.some.injEq, exists_eq_left']
  rw [List.any_eq_false]
  simp only [List.contains_iff_mem, List.mem_filter, not_and, Bool.not_eq_true, Option.isSome_eq_false_iff,
    Option.isNone_iff_eq_none]

theorem copyDset_ok (E : Env α β V Ty) (a : Args α β V) (axes : List String) (src b b' : Box α β V)
    (nd : String × DSpec Ty) (hc : a.comm.rank < a.comm.size)
    (h : copyDset E a (axes.filter fun ax => (a.kw ax).isSome) src b nd = .ok b') :
    b'.maps = b.maps ∧ b'.mapAttrs = b.mapAttrs ∧ b'.attrs = b.attrs ∧
    (∀ n, n ≠ nd.1 → b'.dsets n = b.dsets n) ∧
    ((∀ sd, src.dsets nd.1 = some sd → ¬ ToCopy axes a.kw sd) → b'.dsets nd.1 = b.dsets nd.1) ∧
    (∀ sd, src.dsets nd.1 = some sd → ToCopy axes a.kw sd →
      (∀ x, b.dsets nd.1 = some x → Specified b.maps a.distributed a.comm nd.2 x ∧ x.attrs = fun _ => none) →
      ∃ x, b'.dsets nd.1 = some x ∧ Specified b.maps a.distributed a.comm nd.2 x ∧ (x.attrs = fun _ => none) ∧
        (SameLayout b.maps a.distributed a.comm nd.2 sd.data → Holds (E.cast nd.2.ty) a.comm sd.data x.data)) := by
  unfold copyDset at h
  cases hs : src.dsets nd.1 with
  | none =>
    rw [hs] at h
    obtain rfl := Except.ok.inj h
    simp
  | some sd =>
    rw [hs] at h
    simp only at h
    cases hax : sd.axis with
    | none => rw [hax] at h; cases h
    | some axs =>
      rw [hax] at h
      simp only at h
      have hiff := toCopy_iff axes a.kw sd axs hax
      split at h
      · rename_i hch
        obtain rfl := Except.ok.inj h
        have hno : ¬ ToCopy axes a.kw sd := by rw [hiff, hch]; simp
        refine ⟨rfl, rfl, rfl, fun _ _ => rfl, fun _ => rfl, ?_⟩
        intro sd' hsd'
        cases hsd'
        exact fun h => absurd h hno
      · rename_i hch
        have hyes : ToCopy axes a.kw sd := by rw [hiff]; simpa using hch
        cases hb1 : ensureDset E a b nd with
        | error e => rw [hb1] at h; cases h
        | ok b1 =>
        rw [hb1] at h
        simp only at h
        have hb1p : b1.maps = b.maps ∧ b1.mapAttrs = b.mapAttrs ∧ b1.attrs = b.attrs ∧
            (∀ n, n ≠ nd.1 → b1.dsets n = b.dsets n) ∧
            ((∀ x, b.dsets nd.1 = some x → Specified b.maps a.distributed a.comm nd.2 x ∧ x.attrs = fun _ => none) →
            ∀ x, b1.dsets nd.1 = some x → Specified b.maps a.distributed a.comm nd.2 x ∧ x.attrs = fun _ => none) := by
          unfold ensureDset at hb1
          split at hb1
          · obtain ⟨h1, h2, h3, h4, x, h5, h6, h7, -⟩ := addDataset_ok E a b b1 nd.1 nd.2 hc hb1
            refine ⟨h1, h2, h3, h4, fun _ y hy => ?_⟩
            rw [h5] at hy
            cases hy
            exact ⟨h6, h7⟩
          · obtain rfl := Except.ok.inj hb1
            exact ⟨rfl, rfl, rfl, fun _ _ => rfl, fun h => h⟩
        obtain ⟨p1, p2, p3, p4, p5⟩ := hb1p
        unfold fillDset at h
        cases hd : b1.dsets nd.1 with
        | none => rw [hd] at h; cases h
        | some dd =>
          rw [hd] at h
          simp only at h
          cases hass : assignAll (E.cast nd.2.ty) dd.data sd.data with
          | error e => rw [hass] at h; cases h
          | ok y =>
            rw [hass] at h
            simp only [Except.ok.injEq] at h
            subst h
            refine ⟨p1, p2, p3, fun n hn => ?_, fun hno => absurd hyes (hno sd rfl), ?_⟩
            · simp only
              rw [put_ne _ _ hn, p4 n hn]
            · intro sd' hsd' _ hpre
              cases hsd'
              obtain ⟨q1, q2⟩ := p5 hpre dd hd
              refine ⟨_, put_self _ _ _, assign_specified _ _ _ _ _ _ _ _ q1 hass, q2, fun hlay => ?_⟩
              obtain ⟨y', r1, r2, -⟩ := assign_same (E.cast nd.2.ty) _ _ _ _ dd sd.data q1 hlay
              rw [hass] at r1
              cases r1
              exact r2

/-- The stages of the construction. -/
theorem construct_stages (E : Env α β V Ty) (axes : List String) (spec : List (String × DSpec Ty)) (a : Args α β V)
    (c : Box α β V) : construct E axes spec a = .ok c ↔
    ∃ b1 b2 b3, axes.foldlM (addAxis E a) Box.empty = .ok b1 ∧ initDsets E spec a b1 = .ok b2 ∧
      copyDsets E axes spec a b2 = .ok b3 ∧ c = copyAllAttrs E spec a b3 := by
  unfold construct
  simp only [bind, Except.bind, pure, Except.pure]
  constructor
  · intro h
    cases h1 : axes.foldlM (addAxis E a) Box.empty with
    | error e => rw [h1] at h; cases h
    | ok b1 =>
      rw [h1] at h
      simp only at h
      cases h2 : initDsets E spec a b1 with
      | error e => rw [h2] at h; cases h
      | ok b2 =>
        rw [h2] at h
        simp only at h
        cases h3 : copyDsets E axes spec a b2 with
        | error e => rw [h3] at h; cases h
        | ok b3 =>
          rw [h3] at h
          exact ⟨b1, b2, b3, rfl, h2, h3, (Except.ok.inj h).symm⟩
  · rintro ⟨b1, b2, b3, h1, h2, h3, rfl⟩
    rw [h1]
    simp only
    rw [h2]
    simp only
    rw [h3]

end Verif.Proto
