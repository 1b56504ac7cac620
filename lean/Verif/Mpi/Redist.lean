import Verif.Mpi.Lemmas

/-! # Invariant of the exchange in `redistribute` -/
namespace Verif.Mpi

variable {d : Nat} {α : Type}

/-- The processes hold the blocks of `G` over the old axis, and the new axis is another one. -/
structure Canon (env : Env d α) (G : Arr d α) : Prop where
  gs : env.gs = G.shape
  hab : env.a ≠ env.b
  blocks : ∀ r, r < env.P → IsBlock G env.a env.P r (env.arr r)

/-- The part of a message from `src` to `dst` that matters. -/
structure MsgOK (env : Env d α) (G : Arr d α) (src dst : Nat) (m : Arr d α) : Prop where
  shape : m.shape = env.bufShape 0
  elems : ∀ i : Idx d, i env.a < blockLen (G.shape env.a) env.P src →
    i env.b < blockLen (G.shape env.b) env.P dst →
    (∀ k, k ≠ env.a → k ≠ env.b → i k < G.shape k) →
    m.val i = G.val (upd (upd i env.a (i env.a + blockStart (G.shape env.a) env.P src)) env.b
      (i env.b + blockStart (G.shape env.b) env.P dst))

theorem targetShape_b (env : Env d α) {r : Nat} (hr : r < env.P) :
    env.targetShape r env.b = blockLen (env.gs env.b) env.P r := by
  unfold Env.targetShape; rw [upd_self, num_eq _ _ hr]

theorem targetShape_ne (env : Env d α) {r : Nat} {k : Fin d} (h : k ≠ env.b) :
    env.targetShape r k = env.gs k := upd_ne _ _ _ h

theorem bufShape_b (env : Env d α) (r : Nat) :
    env.bufShape r env.b = maxNum (env.gs env.b) env.P := upd_self _ _ _

theorem bufShape_a (env : Env d α) (r : Nat) (hab : env.a ≠ env.b) :
    env.bufShape r env.a = maxNum (env.gs env.a) env.P := by
  unfold Env.bufShape; rw [upd_ne _ _ _ hab, upd_self]

theorem bufShape_ne (env : Env d α) (r : Nat) {k : Fin d} (h1 : k ≠ env.a) (h2 : k ≠ env.b) :
    env.bufShape r k = env.gs k := by
  unfold Env.bufShape Env.targetShape; rw [upd_ne _ _ _ h2, upd_ne _ _ _ h1, upd_ne _ _ _ h2]

theorem bufShape_same (env : Env d α) (r q : Nat) (hab : env.a ≠ env.b) :
    env.bufShape r = env.bufShape q := by
  funext k
  by_cases h1 : k = env.a
  · subst h1; rw [bufShape_a _ _ hab, bufShape_a _ _ hab]
  · by_cases h2 : k = env.b
    · subst h2; rw [bufShape_b, bufShape_b]
    · rw [bufShape_ne _ _ h1 h2, bufShape_ne _ _ h1 h2]

theorem cut_eq (env : Env d α) {q : Nat} (hq : q ≤ env.P) (hP : 0 < env.P) :
    env.cut q = blockStart (env.gs env.b) env.P q := by
  unfold Env.cut
  split
  · next h => rw [bounds_eq _ _ hP, h]
  · next h =>
    rw [bounds_eq _ _ (by omega)]
    show blockStart _ _ (q - 1) + _ = _
    rw [← blockStart_succ, Nat.sub_add_cancel (by omega)]

theorem sendTo_lt (env : Env d α) (r i : Nat) (h : 0 < env.P) : env.sendTo r i < env.P := Nat.mod_lt _ h
theorem recvFrom_lt (env : Env d α) (r i : Nat) (h : 0 < env.P) : env.recvFrom r i < env.P :=
  Nat.mod_lt _ h

/-- Shape of the block sent to `q`. -/
theorem block_shape (env : Env d α) (G : Arr d α) (hc : Canon env G) {r q : Nat} (hr : r < env.P)
    (hq : q < env.P) (k : Fin d) :
    (env.block r q).shape k = if k = env.b then blockLen (G.shape env.b) env.P q
      else if k = env.a then blockLen (G.shape env.a) env.P r else G.shape k := by
  have hb := hc.blocks r hr
  have hP : 0 < env.P := by omega
  unfold Env.block Arr.slice
  simp only
  by_cases h2 : k = env.b
  · subst h2
    rw [upd_self, cut_eq env (by omega) hP, cut_eq env hq hP, hb.others _ (Ne.symm hc.hab), hc.gs,
      if_pos rfl, blockStart_succ]
    have := block_le (G.shape env.b) env.P hq
    omega
  · rw [upd_ne _ _ _ h2, if_neg h2]
    simp only [Arr.full]
    by_cases h1 : k = env.a
    · subst h1; rw [hb.axis, if_pos rfl]; omega
    · rw [hb.others k h1, if_neg h1]; omega

theorem sendSl_apply (env : Env d α) {r i : Nat} (hr : r < env.P) (k : Fin d) :
    env.sendSl r i k = (0, if k = env.b then blockLen (env.gs env.b) env.P (env.sendTo r i)
      else if k = env.a then blockLen (env.gs env.a) env.P r else env.gs k) := by
  have hP : 0 < env.P := by omega
  unfold Env.sendSl
  by_cases h2 : k = env.b
  · subst h2; rw [upd_self, num_eq _ _ (sendTo_lt env r i hP), if_pos rfl]
  · rw [upd_ne _ _ _ h2, if_neg h2]
    by_cases h1 : k = env.a
    · subst h1; rw [upd_self, num_eq _ _ hr, if_pos rfl]
    · rw [upd_ne _ _ _ h1, if_neg h1, bufShape_ne _ _ h1 h2]

theorem stage_ok (env : Env d α) (G : Arr d α) (hc : Canon env G) {r i : Nat} (hr : r < env.P)
    (buf : Arr d α) (hbuf : buf.shape = env.bufShape 0) :
    ∃ b, env.stage r i buf = .ok b ∧ MsgOK env G r (env.sendTo r i) b := by
  have hP : 0 < env.P := by omega
  have hq := sendTo_lt env r i hP
  have hb := hc.blocks r hr
  have hmin : ∀ k, min (env.sendSl r i k).1 (buf.shape k) = 0 := by
    intro k; rw [sendSl_apply env hr]; simp
  have hmin2 : ∀ k, min (env.sendSl r i k).2 (buf.shape k) = (env.block r (env.sendTo r i)).shape k := by
    intro k
    rw [sendSl_apply env hr, block_shape env G hc hr hq, hbuf, hc.gs]
    simp only
    by_cases h2 : k = env.b
    · subst h2
      rw [if_pos rfl, bufShape_b, hc.gs]
      have := num_le_max (G.shape env.b) env.P hq
      omega
    · rw [if_neg h2]
      by_cases h1 : k = env.a
      · subst h1
        rw [if_pos rfl, bufShape_a _ _ hc.hab, hc.gs]
        have := num_le_max (G.shape env.a) env.P hr
        omega
      · rw [if_neg h1, bufShape_ne _ _ h1 h2, hc.gs]; omega
  have hsh : (env.block r (env.sendTo r i)).shape = (buf.slice (env.sendSl r i)).shape := by
    funext k
    show _ = min (env.sendSl r i k).2 (buf.shape k) - min (env.sendSl r i k).1 (buf.shape k)
    rw [hmin, hmin2]; rfl
  refine ⟨_, assign_ok _ _ _ hsh, ⟨hbuf, ?_⟩⟩
  intro j ja jb jk
  have hin : buf.inSlice (env.sendSl r i) j := by
    intro k
    rw [hmin, hmin2, block_shape env G hc hr hq]
    refine ⟨Nat.zero_le _, ?_⟩
    by_cases h2 : k = env.b
    · subst h2; rwa [if_pos rfl]
    · rw [if_neg h2]
      by_cases h1 : k = env.a
      · subst h1; rwa [if_pos rfl]
      · rw [if_neg h1]; exact jk k h1 h2
  rw [put_inside _ _ _ hsh j hin]
  have hfun : (fun k => j k - min (env.sendSl r i k).1 (buf.shape k)) = j := by
    funext k; rw [hmin]; rfl
  rw [hfun]
  show (env.arr r).val _ = _
  have hidx : ∀ k, j k + min (upd (env.arr r).full env.b (env.cut (env.sendTo r i),
      env.cut (env.sendTo r i + 1)) k).1 ((env.arr r).shape k)
      = upd j env.b (j env.b + blockStart (G.shape env.b) env.P (env.sendTo r i)) k := by
    intro k
    by_cases h2 : k = env.b
    · subst h2
      rw [upd_self, upd_self, hb.others _ (Ne.symm hc.hab)]
      simp only
      rw [cut_eq env (by omega) hP, hc.gs]
      have := block_le (G.shape env.b) env.P hq
      omega
    · rw [upd_ne _ _ _ h2, upd_ne _ _ _ h2]; simp [Arr.full]
  rw [funext hidx, hb.elems]
  · congr 1
    funext k
    by_cases h2 : k = env.b
    · subst h2; rw [upd_ne _ _ _ (Ne.symm hc.hab), upd_self, upd_self]
    · rw [upd_ne _ env.b _ h2]
      by_cases h1 : k = env.a
      · subst h1; rw [upd_self, upd_self, upd_ne _ _ _ h2]
      · rw [upd_ne _ _ _ h1, upd_ne _ _ _ h1, upd_ne _ _ _ h2]
  · intro k
    by_cases h2 : k = env.b
    · subst h2
      rw [upd_self, hb.others _ (Ne.symm hc.hab)]
      have := block_le (G.shape env.b) env.P hq
      omega
    · rw [upd_ne _ _ _ h2]
      by_cases h1 : k = env.a
      · subst h1; rw [hb.axis]; exact ja
      · rw [hb.others k h1]; exact jk k h1 h2

/-- The rows of the result of process `r` that come from process `q` are in place. -/
def RowsOK (env : Env d α) (G : Arr d α) (r q : Nat) (t : Arr d α) : Prop :=
  ∀ i : Idx d, Inside (env.targetShape r) i →
    blockStart (G.shape env.a) env.P q ≤ i env.a →
    i env.a < blockStart (G.shape env.a) env.P q + blockLen (G.shape env.a) env.P q →
    t.val i = G.val (upd i env.b (i env.b + blockStart (G.shape env.b) env.P r))

theorem targetSl_apply (env : Env d α) {r i : Nat} (hP : 0 < env.P) (k : Fin d) :
    env.targetSl r i k = if k = env.a then
      (blockStart (env.gs env.a) env.P (env.recvFrom r i),
        blockStart (env.gs env.a) env.P (env.recvFrom r i)
          + blockLen (env.gs env.a) env.P (env.recvFrom r i))
      else (0, env.targetShape r k) := by
  unfold Env.targetSl
  by_cases h : k = env.a
  · subst h; rw [upd_self, bounds_eq _ _ (recvFrom_lt env r i hP), if_pos rfl]
  · rw [upd_ne _ _ _ h, if_neg h]

theorem recvSl_apply (env : Env d α) {r i : Nat} (hr : r < env.P) (k : Fin d) :
    env.recvSl r i k = (0, if k = env.a then blockLen (env.gs env.a) env.P (env.recvFrom r i)
      else if k = env.b then blockLen (env.gs env.b) env.P r else env.gs k) := by
  have hP : 0 < env.P := by omega
  unfold Env.recvSl
  by_cases h1 : k = env.a
  · subst h1; rw [upd_self, num_eq _ _ (recvFrom_lt env r i hP), if_pos rfl]
  · rw [upd_ne _ _ _ h1, if_neg h1]
    by_cases h2 : k = env.b
    · subst h2; rw [upd_self, num_eq _ _ hr, if_pos rfl]
    · rw [upd_ne _ _ _ h2, if_neg h2, bufShape_ne _ _ h1 h2]

theorem store_ok (env : Env d α) (G : Arr d α) (hc : Canon env G) {r i : Nat} (hr : r < env.P)
    (t m : Arr d α) (ht : t.shape = env.targetShape r) (hm : MsgOK env G (env.recvFrom r i) r m) :
    ∃ t', env.store r i t m = .ok t' ∧ t'.shape = env.targetShape r ∧
      RowsOK env G r (env.recvFrom r i) t' ∧
      ∀ q, q < env.P → q ≠ env.recvFrom r i → RowsOK env G r q t → RowsOK env G r q t' := by
  have hP : 0 < env.P := by omega
  have hq := recvFrom_lt env r i hP
  generalize hqq : env.recvFrom r i = q at hq hm
  have hle := block_le (G.shape env.a) env.P hq
  have hta : t.shape env.a = G.shape env.a := by rw [ht, targetShape_ne env hc.hab, hc.gs]
  have hT : ∀ k, env.targetSl r i k = if k = env.a then
      (blockStart (G.shape env.a) env.P q, blockStart (G.shape env.a) env.P q
        + blockLen (G.shape env.a) env.P q) else (0, t.shape k) := by
    intro k; rw [targetSl_apply env hP, hqq, hc.gs, ht]
  have hlo : ∀ k, min (env.targetSl r i k).1 (t.shape k)
      = if k = env.a then blockStart (G.shape env.a) env.P q else 0 := by
    intro k
    rw [hT]
    by_cases h1 : k = env.a
    · subst h1; simp only [if_true]; rw [hta]; omega
    · simp only [if_neg h1]; omega
  have hhi : ∀ k, min (env.targetSl r i k).2 (t.shape k)
      = if k = env.a then blockStart (G.shape env.a) env.P q + blockLen (G.shape env.a) env.P q
        else t.shape k := by
    intro k
    rw [hT]
    by_cases h1 : k = env.a
    · subst h1; simp only [if_true]; rw [hta]; omega
    · simp only [if_neg h1]; omega
  have hms : ∀ k, (m.slice (env.recvSl r i)).shape k =
      if k = env.a then blockLen (G.shape env.a) env.P q else t.shape k := by
    intro k
    show min (env.recvSl r i k).2 (m.shape k) - min (env.recvSl r i k).1 (m.shape k) = _
    rw [recvSl_apply env hr, hm.shape, hqq, hc.gs]
    simp only
    by_cases h1 : k = env.a
    · subst h1
      rw [if_pos rfl, if_pos rfl, bufShape_a _ _ hc.hab, hc.gs]
      have := num_le_max (G.shape env.a) env.P hq
      omega
    · rw [if_neg h1, if_neg h1]
      by_cases h2 : k = env.b
      · subst h2
        rw [if_pos rfl, bufShape_b, ht, targetShape_b env hr, hc.gs]
        have := num_le_max (G.shape env.b) env.P hr
        omega
      · rw [if_neg h2, bufShape_ne _ _ h1 h2, ht, targetShape_ne env h2, hc.gs]; omega
  have hsh : (m.slice (env.recvSl r i)).shape = (t.slice (env.targetSl r i)).shape := by
    funext k
    rw [hms]
    show _ = min (env.targetSl r i k).2 (t.shape k) - min (env.targetSl r i k).1 (t.shape k)
    rw [hlo, hhi]
    by_cases h1 : k = env.a
    · subst h1; simp only [if_true]; omega
    · simp only [if_neg h1]; omega
  refine ⟨_, assign_ok _ _ _ hsh, ht, ?_, ?_⟩
  · intro j hj j1 j2
    have hin : t.inSlice (env.targetSl r i) j := by
      intro k
      rw [hlo, hhi]
      by_cases h1 : k = env.a
      · subst h1; simp only [if_true]; exact ⟨j1, j2⟩
      · simp only [if_neg h1]; have := hj k; rw [ht]; omega
    rw [put_inside _ _ _ hsh j hin]
    show m.val _ = _
    have hidx : (fun k => j k - min (env.targetSl r i k).1 (t.shape k)
        + min (env.recvSl r i k).1 (m.shape k))
        = upd j env.a (j env.a - blockStart (G.shape env.a) env.P q) := by
      funext k
      rw [hlo, recvSl_apply env hr]
      by_cases h1 : k = env.a
      · subst h1; rw [upd_self]; simp
      · rw [upd_ne _ _ _ h1]; simp [h1]
    rw [hidx, hm.elems]
    · congr 1
      funext k
      by_cases h2 : k = env.b
      · subst h2; rw [upd_self, upd_self, upd_ne _ _ _ (Ne.symm hc.hab)]
      · rw [upd_ne _ env.b _ h2, upd_ne _ env.b _ h2]
        by_cases h1 : k = env.a
        · subst h1; rw [upd_self, upd_self]; omega
        · rw [upd_ne _ _ _ h1, upd_ne _ _ _ h1]
    · rw [upd_self]; omega
    · rw [upd_ne _ _ _ (Ne.symm hc.hab)]
      have := hj env.b; rw [targetShape_b env hr, hc.gs] at this; exact this
    · intro k h1 h2
      rw [upd_ne _ _ _ h1]
      have := hj k; rw [targetShape_ne env h2, hc.gs] at this; exact this
  · intro q' hq' hne hrows j hj j1 j2
    have hout : ¬ t.inSlice (env.targetSl r i) j := by
      intro hin
      have h := hin env.a
      rw [hlo, hhi] at h
      simp only [if_true] at h
      refine hne (Split.blk_owner_unique (G.shape env.a) env.P (j env.a) q q' h.1 ?_ j1 ?_)
      · rw [← blockStart_eq, blockStart_succ]; exact h.2
      · rw [← blockStart_eq, blockStart_succ]; exact j2
    rw [put_outside _ _ _ _ hout]
    exact hrows j hj j1 j2

/-- Invariant of the exchange. -/
structure Inv (env : Env d α) (G : Arr d α) (s : RState d α) : Prop where
  ok : ∀ r, r < env.P → s.err r = none
  pc : ∀ r, r < env.P → s.pc r ≤ 2 * env.P
  sbuf : ∀ r, r < env.P → (s.sbuf r).shape = env.bufShape 0
  target : ∀ r, r < env.P → (s.target r).shape = env.targetShape r
  rows : ∀ r, r < env.P → ∀ i, 2 * i + 2 ≤ s.pc r → RowsOK env G r (env.recvFrom r i) (s.target r)
  mail : ∀ r, r < env.P → ∀ i, i < env.P → ∀ m, s.mail r (env.sendTo r i) = some m →
    2 * i < s.pc r ∧ MsgOK env G r (env.sendTo r i) m
  mailed : ∀ r, r < env.P → ∀ i, i < env.P → 2 * i < s.pc r → s.pc (env.sendTo r i) < 2 * i + 2 →
    (s.mail r (env.sendTo r i)).isSome

theorem recvFrom_inj (env : Env d α) {r i j : Nat} (hr : r < env.P) (hi : i < env.P) (hj : j < env.P)
    (h : env.recvFrom r i = env.recvFrom r j) : i = j := by
  unfold Env.recvFrom at h
  rw [recvFrom_eq _ _ _ hr hi, recvFrom_eq _ _ _ hr hj] at h
  split at h <;> split at h <;> omega

theorem inv_send (env : Env d α) (G : Arr d α) (hc : Canon env G) (s : RState d α) (hs : Inv env G s)
    {r : Nat} (hr : r < env.P) (hpc : s.pc r < 2 * env.P) (hev : s.pc r % 2 = 0) :
    Inv env G (s.sendStep env r) ∧ (s.sendStep env r).pc = upd s.pc r (s.pc r + 1) := by
  have hP : 0 < env.P := by omega
  generalize hi : s.pc r / 2 = i
  have hi2 : s.pc r = 2 * i := by omega
  have hiP : i < env.P := by omega
  obtain ⟨b, hb, hmsg⟩ := stage_ok env G hc (i := i) hr (s.sbuf r) (hs.sbuf r hr)
  have heq : s.sendStep env r = s.sent r (env.sendTo r i) b := by
    unfold RState.sendStep; rw [hi, hb]
  rw [heq]
  refine ⟨?_, rfl⟩
  have hpcs : ∀ q, (s.sent r (env.sendTo r i) b).pc q = if q = r then 2 * i + 1 else s.pc q := by
    intro q
    show upd s.pc r (s.pc r + 1) q = _
    unfold upd; rw [hi2]
  have hmail : ∀ q j, q < env.P → j < env.P → (s.sent r (env.sendTo r i) b).mail q (env.sendTo q j)
      = if q = r ∧ j = i then some b else s.mail q (env.sendTo q j) := by
    intro q j hq hj
    show upd s.mail r (upd (s.mail r) (env.sendTo r i) (some b)) q (env.sendTo q j) = _
    by_cases h1 : q = r
    · subst h1
      rw [upd_self]
      by_cases h2 : j = i
      · subst h2; rw [upd_self, if_pos ⟨rfl, rfl⟩]
      · rw [if_neg (fun h => h2 h.2), upd_ne]
        intro h; exact h2 (round_unique _ _ _ _ hq hj hiP h)
    · rw [upd_ne _ _ _ h1, if_neg (fun h => h1 h.1)]
  constructor
  · exact hs.ok
  · intro q hq; rw [hpcs]; split
    · omega
    · exact hs.pc q hq
  · intro q hq
    show (upd s.sbuf r b q).shape = _
    by_cases h1 : q = r
    · subst h1; rw [upd_self]; exact hmsg.shape
    · rw [upd_ne _ _ _ h1]; exact hs.sbuf q hq
  · exact hs.target
  · intro q hq j hj
    refine hs.rows q hq j ?_
    rw [hpcs] at hj
    split at hj
    · next h => subst h; omega
    · exact hj
  · intro q hq j hj m hm
    rw [hmail q j hq hj] at hm
    rw [hpcs]
    by_cases h1 : q = r ∧ j = i
    · obtain ⟨rfl, rfl⟩ := h1
      rw [if_pos ⟨rfl, rfl⟩] at hm
      cases hm
      rw [if_pos rfl]
      exact ⟨by omega, hmsg⟩
    · rw [if_neg h1] at hm
      obtain ⟨h2, h3⟩ := hs.mail q hq j hj m hm
      refine ⟨?_, h3⟩
      split
      · next h => subst h; omega
      · exact h2
  · intro q hq j hj h1 h2
    rw [hpcs] at h1 h2
    rw [hmail q j hq hj]
    by_cases h3 : q = r ∧ j = i
    · rw [if_pos h3]; rfl
    · rw [if_neg h3]
      refine hs.mailed q hq j hj ?_ ?_
      · split at h1
        · next h => subst h; have : j ≠ i := fun h => h3 ⟨rfl, h⟩; omega
        · exact h1
      · split at h2
        · next h => rw [h]; omega
        · exact h2

theorem inv_recv (env : Env d α) (G : Arr d α) (hc : Canon env G) (s : RState d α) (hs : Inv env G s)
    {r : Nat} (hr : r < env.P) (hpc : s.pc r < 2 * env.P) (hodd : ¬ s.pc r % 2 = 0) (m : Arr d α)
    (hm : s.mail (env.recvFrom r (s.pc r / 2)) r = some m) :
    Inv env G (s.recvStep env r m) ∧ (s.recvStep env r m).pc = upd s.pc r (s.pc r + 1) := by
  have hP : 0 < env.P := by omega
  generalize hi : s.pc r / 2 = i at hm
  have hi2 : s.pc r = 2 * i + 1 := by omega
  have hiP : i < env.P := by omega
  have hq := recvFrom_lt env r i hP
  have hback : env.sendTo (env.recvFrom r i) i = r := send_recv env.P r i hr hiP
  have hmsg : MsgOK env G (env.recvFrom r i) r m := by
    have := (hs.mail _ hq i hiP m (by rw [hback]; exact hm)).2
    rwa [hback] at this
  obtain ⟨t', ht, hsh, hnew, hold⟩ := store_ok env G hc (i := i) hr (s.target r) m (hs.target r hr) hmsg
  have heq : s.recvStep env r m = s.received r (env.recvFrom r i) t' := by
    unfold RState.recvStep; rw [hi, ht]
  rw [heq]
  refine ⟨?_, rfl⟩
  have hpcs : ∀ q, (s.received r (env.recvFrom r i) t').pc q = if q = r then 2 * i + 2 else s.pc q := by
    intro q
    show upd s.pc r (s.pc r + 1) q = _
    unfold upd; rw [hi2]
  have hmail : ∀ q j, q < env.P → j < env.P →
      (s.received r (env.recvFrom r i) t').mail q (env.sendTo q j)
      = if q = env.recvFrom r i ∧ j = i then none else s.mail q (env.sendTo q j) := by
    intro q j hq' hj
    show upd s.mail (env.recvFrom r i) (upd (s.mail (env.recvFrom r i)) r none) q (env.sendTo q j) = _
    by_cases h1 : q = env.recvFrom r i
    · rw [h1, upd_self]
      by_cases h2 : j = i
      · rw [h2, hback, upd_self, if_pos ⟨rfl, rfl⟩]
      · rw [if_neg (fun h => h2 h.2), upd_ne]
        intro h
        exact h2 (round_unique _ _ _ _ hq hj hiP (h.trans hback.symm))
    · rw [upd_ne _ _ _ h1, if_neg (fun h => h1 h.1)]
  constructor
  · exact hs.ok
  · intro q hq; rw [hpcs]; split
    · omega
    · exact hs.pc q hq
  · exact hs.sbuf
  · intro q hq
    show (upd s.target r t' q).shape = _
    by_cases h1 : q = r
    · subst h1; rw [upd_self]; exact hsh
    · rw [upd_ne _ _ _ h1]; exact hs.target q hq
  · intro q hq j hj
    show RowsOK env G q _ (upd s.target r t' q)
    rw [hpcs] at hj
    by_cases h1 : q = r
    · subst h1
      rw [if_pos rfl] at hj
      rw [upd_self]
      by_cases h2 : env.recvFrom q j = env.recvFrom q i
      · rw [h2]; exact hnew
      · refine hold _ (recvFrom_lt env q j hP) h2 (hs.rows q ‹q < env.P› j ?_)
        have : j ≠ i := fun h => h2 (by rw [h])
        omega
    · rw [if_neg h1] at hj
      rw [upd_ne _ _ _ h1]
      exact hs.rows q hq j hj
  · intro q hq j hj m' hm'
    rw [hmail q j hq hj] at hm'
    split at hm'
    · cases hm'
    · obtain ⟨h2, h3⟩ := hs.mail q hq j hj m' hm'
      refine ⟨?_, h3⟩
      rw [hpcs]
      split
      · next h => subst h; omega
      · exact h2
  · intro q hq j hj h1 h2
    rw [hpcs] at h1 h2
    rw [hmail q j hq hj]
    by_cases h3 : q = env.recvFrom r i ∧ j = i
    · obtain ⟨h4, h5⟩ := h3
      rw [h4, h5, hback, if_pos rfl] at h2
      omega
    · rw [if_neg h3]
      refine hs.mailed q hq j hj ?_ ?_
      · split at h1
        · next h =>
          subst h
          by_cases h6 : j = i
          · subst h6; omega
          · omega
        · exact h1
      · split at h2
        · next h => rw [h]; omega
        · exact h2

/-- Every action keeps the invariant and moves exactly one process on. -/
theorem inv_step (env : Env d α) (G : Arr d α) (hc : Canon env G) (s s' : RState d α)
    (hs : Inv env G s) (r : Nat) (h : s.step env r = some s') :
    Inv env G s' ∧ r < env.P ∧ s.pc r < 2 * env.P ∧ s'.pc = upd s.pc r (s.pc r + 1) := by
  unfold RState.step at h
  split at h
  · cases h
  · next h1 =>
    have hr : r < env.P := by
      rcases Nat.lt_or_ge r env.P with h2 | h2
      · exact h2
      · exact absurd (Or.inr (Or.inr h2)) h1
    have hpc : s.pc r < 2 * env.P := by
      rcases Nat.lt_or_ge (s.pc r) (2 * env.P) with h2 | h2
      · exact h2
      · exact absurd (Or.inr (Or.inl h2)) h1
    split at h
    · next hev =>
      cases h
      have := inv_send env G hc s hs hr hpc hev
      exact ⟨this.1, hr, hpc, this.2⟩
    · next hodd =>
      split at h
      · cases h
      · next m hm =>
        cases h
        have := inv_recv env G hc s hs hr hpc hodd m hm
        exact ⟨this.1, hr, hpc, this.2⟩

theorem inv_run (env : Env d α) (G : Arr d α) (hc : Canon env G) (s : RState d α) (hs : Inv env G s)
    (sched : List Nat) : Inv env G (s.run env sched) := by
  induction sched generalizing s with
  | nil => exact hs
  | cons r rest ih =>
    show Inv env G (((s.step env r).getD s).run env rest)
    apply ih
    cases h : s.step env r with
    | none => exact hs
    | some s' => exact (inv_step env G hc s s' hs r h).1

theorem inv_start (env : Env d α) (G : Arr d α) (enough : Nat → Bool)
    (junkS junkT : Nat → Idx d → α) (hab : env.a ≠ env.b) (he : ∀ r, r < env.P → enough r = true) :
    Inv env G (RState.start env enough junkS junkT) := by
  constructor
  · intro r hr; simp [RState.start, he r hr]
  · intro r hr; exact Nat.zero_le _
  · intro r hr; rw [bufShape_same env 0 r hab]; rfl
  · intro r hr; rfl
  · intro r hr i hi; exact absurd hi (by simp [RState.start])
  · intro r hr i hi m hm; cases hm
  · intro r hr i hi h; exact absurd h (by simp [RState.start])

/-- Actions still to come. -/
def remaining (env : Env d α) (s : RState d α) : Nat :=
  ((List.range env.P).map fun r => 2 * env.P - s.pc r).sum

theorem sum_upd (f g : Nat → Nat) (n r : Nat) (hr : r < n) (h1 : f r = g r + 1)
    (h2 : ∀ q, q ≠ r → f q = g q) :
    ((List.range n).map f).sum = ((List.range n).map g).sum + 1 := by
  induction n with
  | zero => omega
  | succ n ih =>
    simp only [List.range_succ, List.map_append, List.sum_append, List.map_cons, List.map_nil,
      List.sum_cons, List.sum_nil]
    by_cases h : r = n
    · have : (List.range n).map f = (List.range n).map g := by
        apply List.map_congr_left
        intro q hq
        exact h2 q (by have := List.mem_range.1 hq; omega)
      rw [this, ← h, h1]; omega
    · rw [ih (by omega), h2 n (Ne.symm h)]; omega

theorem remaining_step (env : Env d α) (s s' : RState d α) (r : Nat) (hr : r < env.P)
    (hpc : s.pc r < 2 * env.P) (h : s'.pc = upd s.pc r (s.pc r + 1)) :
    remaining env s = remaining env s' + 1 := by
  unfold remaining
  apply sum_upd _ _ _ r hr
  · rw [h, upd_self]; omega
  · intro q hq; rw [h, upd_ne _ _ _ hq]

/-- No deadlock: as long as some process has not finished, some process can act. -/
theorem inv_progress (env : Env d α) (G : Arr d α) (s : RState d α) (hs : Inv env G s)
    (hnf : ¬ s.finished env) : ∃ r s', s.step env r = some s' := by
  have hex : ∃ n r, r < env.P ∧ s.pc r = n ∧ n < 2 * env.P := by
    refine Classical.byContradiction fun hno => hnf ?_
    intro r hr
    have := hs.pc r hr
    rcases Nat.lt_or_ge (s.pc r) (2 * env.P) with h | h
    · exact absurd ⟨_, r, hr, rfl, h⟩ hno
    · omega
  -- the process furthest behind
  have hmin : ∃ r, r < env.P ∧ s.pc r < 2 * env.P ∧ ∀ q, q < env.P → s.pc r ≤ s.pc q := by
    obtain ⟨n, hn⟩ := hex
    induction n using Nat.strongRecOn with
    | _ n ih =>
      obtain ⟨r, hr, h1, h2⟩ := hn
      by_cases hall : ∀ q, q < env.P → s.pc r ≤ s.pc q
      · exact ⟨r, hr, by omega, hall⟩
      · obtain ⟨q, hq⟩ := Classical.not_forall.1 hall
        obtain ⟨hq1, hq2⟩ := Classical.not_imp.1 hq
        exact ih (s.pc q) (by omega) ⟨q, hq1, rfl, by omega⟩
  obtain ⟨r, hr, hpc, hall⟩ := hmin
  have hP : 0 < env.P := by omega
  have hcond : ¬ ((s.err r).isSome ∨ 2 * env.P ≤ s.pc r ∨ env.P ≤ r) := by
    rw [hs.ok r hr]; simp; omega
  refine ⟨r, ?_⟩
  unfold RState.step
  rw [if_neg hcond]
  by_cases hev : s.pc r % 2 = 0
  · rw [if_pos hev]; exact ⟨_, rfl⟩
  · rw [if_neg hev]
    have hi : s.pc r / 2 < env.P := by omega
    have hq := recvFrom_lt env r (s.pc r / 2) hP
    have hback : env.sendTo (env.recvFrom r (s.pc r / 2)) (s.pc r / 2) = r :=
      send_recv env.P r _ hr hi
    have hsome := hs.mailed _ hq _ hi (by have := hall _ hq; omega) (by rw [hback]; omega)
    rw [hback] at hsome
    obtain ⟨m, hm⟩ := Option.isSome_iff_exists.1 hsome
    rw [hm]
    exact ⟨_, rfl⟩

/-- When all processes have finished each holds its block of the new axis. -/
theorem inv_finished (env : Env d α) (G : Arr d α) (hc : Canon env G) (s : RState d α)
    (hs : Inv env G s) {r : Nat} (hr : r < env.P) (hfin : s.pc r = 2 * env.P) :
    IsBlock G env.b env.P r (s.target r) := by
  have hP : 0 < env.P := by omega
  have hsh := hs.target r hr
  constructor
  · rw [hsh, targetShape_b env hr, hc.gs]
  · intro k hk; rw [hsh, targetShape_ne env hk, hc.gs]
  · intro i hi
    rw [hsh] at hi
    have hia := hi env.a
    rw [targetShape_ne env hc.hab, hc.gs] at hia
    obtain ⟨q, hq, h1, h2⟩ := block_owner (G.shape env.a) env.P hP _ hia
    obtain ⟨j, hj, hjq⟩ := round_exists env.P r q hr hq
    have hrow := hs.rows r hr j (by omega)
    rw [show env.recvFrom r j = q from hjq] at hrow
    exact hrow i hi h1 h2

theorem run_append (env : Env d α) (s : RState d α) (l1 l2 : List Nat) :
    s.run env (l1 ++ l2) = (s.run env l1).run env l2 := List.foldl_append

theorem inv_ends (env : Env d α) (G : Arr d α) (hc : Canon env G) (s : RState d α)
    (hs : Inv env G s) : ∃ more, more.length = remaining env s ∧ (s.run env more).finished env := by
  generalize hn : remaining env s = n
  induction n generalizing s with
  | zero =>
    refine ⟨[], rfl, Classical.byContradiction fun hf => ?_⟩
    obtain ⟨r, s', hst⟩ := inv_progress env G s hs hf
    obtain ⟨_, hr, hpc, hp⟩ := inv_step env G hc s s' hs r hst
    have := remaining_step env s s' r hr hpc hp
    omega
  | succ n ih =>
    have hf : ¬ s.finished env := by
      intro hf
      have : remaining env s = 0 := by
        unfold remaining
        apply List.sum_eq_zero_iff_forall_eq_nat.2
        intro x hx
        obtain ⟨r, hr, rfl⟩ := List.mem_map.1 hx
        rw [hf r (List.mem_range.1 hr)]; omega
      omega
    obtain ⟨r, s', hst⟩ := inv_progress env G s hs hf
    obtain ⟨hs', hr, hpc, hp⟩ := inv_step env G hc s s' hs r hst
    have := remaining_step env s s' r hr hpc hp
    obtain ⟨more, hl, hm⟩ := ih s' hs' (by omega)
    refine ⟨r :: more, by simp [hl], ?_⟩
    show (((s.step env r).getD s).run env more).finished env
    rw [hst]
    exact hm

end Verif.Mpi
