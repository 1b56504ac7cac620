import Verif.Slice.Spec
import Mathlib.Data.List.Nodup
import Mathlib.Data.List.Induction
import Mathlib.Tactic.Linarith

/-!
# C54: sharing out zip jobs over hosts

Models `caput/pipeline/tasklib/io.py:866-943` (`ZipZarrContainers.setup` and the selection of containers in
`process`). Hosts are numbers here; Python compares host names, any total order does. The zipping itself is
not modelled.
-/
namespace Verif.Tasks

/-- io.py:887-895: one pass of the loop over `(host, rank)`. -/
def addHost (d : List (Nat × Nat)) (e : Nat × Nat) : List (Nat × Nat) :=
  match d.find? (·.1 = e.1) with
  | none => d ++ [e]
  | some old => if old.2 > e.2 then d.map fun p => if p.1 = e.1 then (p.1, e.2) else p else d

/-- io.py:884-895 `unique_hosts`, for the list of the hosts of the processes. -/
def uniqueHosts (hosts : List Nat) : List (Nat × Nat) := (hosts.zipIdx).foldl addHost []

/-- Insertion into a sorted list. -/
def ins (x : Nat) : List Nat → List Nat
  | [] => [x]
  | y :: ys => if x ≤ y then x :: y :: ys else y :: ins x ys

/-- `sorted(...)`. -/
def isort (l : List Nat) : List Nat := l.foldr ins []

/-- io.py:899-906 `_host_rank` of a process; `none` if it does not take part. -/
def hostRank (hosts : List Nat) (rank : Nat) : Option Nat :=
  match hosts[rank]? with
  | none => none
  | some h =>
    match (uniqueHosts hosts).find? (·.1 = h) with
    | none => none
    | some e => if e.2 ≠ rank then none else some ((isort ((uniqueHosts hosts).map (·.1))).idxOf h)

/-- io.py:913-918: the positions `[host_rank :: num_hosts]` of a process. -/
def myContainers (hosts : List Nat) (ncont rank : Nat) : List Nat :=
  match hostRank hosts rank with
  | none => []
  | some hr => Slice.Spec.positions ncont (some (hr : Int)) none ((uniqueHosts hosts).length : Int)

/-! ## Lemmas -/

/-- `r` is the lowest rank on host `h`. -/
def FirstOn (hosts : List Nat) (h r : Nat) : Prop :=
  hosts[r]? = some h ∧ ∀ r' < r, hosts[r']? ≠ some h

theorem uniqueHosts_append (l : List Nat) (x : Nat) :
    uniqueHosts (l ++ [x]) = addHost (uniqueHosts l) (x, l.length) := by
  simp [uniqueHosts, List.zipIdx_append]

theorem uniqueHosts_inv (hosts : List Nat) :
    ((uniqueHosts hosts).map (·.1)).Nodup ∧
    ∀ h r, (h, r) ∈ uniqueHosts hosts ↔ FirstOn hosts h r := by
  induction hosts using List.reverseRecOn with
  | nil => simp [uniqueHosts, FirstOn]
  | append_singleton l x ih =>
    obtain ⟨h1, h2⟩ := ih
    rw [uniqueHosts_append]
    unfold addHost
    cases hf : (uniqueHosts l).find? (·.1 = x) with
    | none =>
      simp only
      rw [List.find?_eq_none] at hf
      have hnot : ∀ r, (x, r) ∉ uniqueHosts l := by
        intro r hr
        simpa using hf (x, r) hr
      have hx : x ∉ l := by
        intro hx
        -- the first occurrence
        have hlt := List.idxOf_lt_length_of_mem hx
        apply hnot (l.idxOf x)
        rw [h2]
        refine ⟨by rw [List.getElem?_eq_getElem hlt]; simp, ?_⟩
        intro r' hr' he
        rw [List.getElem?_eq_getElem (by omega)] at he
        have := List.not_of_lt_findIdx hr'
        simp at this
        simp at he
        exact this he
      constructor
      · rw [List.map_append, List.nodup_append]
        refine ⟨h1, by simp, ?_⟩
        intro a ha b hb
        simp at hb
        subst hb
        rintro rfl
        simp only [List.mem_map] at ha
        obtain ⟨⟨h, r⟩, hm, rfl⟩ := ha
        exact hnot r hm
      · intro h r
        simp only [List.mem_append, List.mem_singleton, Prod.mk.injEq, h2, FirstOn]
        constructor
        · rintro (⟨ha, hb⟩ | ⟨rfl, rfl⟩)
          · have hr : r < l.length := (List.getElem?_eq_some_iff.1 ha).1
            refine ⟨by rw [List.getElem?_append_left hr]; exact ha, ?_⟩
            intro r' hr'
            rw [List.getElem?_append_left (by omega)]
            exact hb r' hr'
          · refine ⟨by simp, ?_⟩
            intro r' hr' he
            rw [List.getElem?_append_left hr'] at he
            exact hx (List.mem_of_getElem? he)
        · rintro ⟨ha, hb⟩
          have hr : r < l.length + 1 := by simpa using (List.getElem?_eq_some_iff.1 ha).1
          by_cases hrl : r < l.length
          · rw [List.getElem?_append_left hrl] at ha
            refine Or.inl ⟨ha, ?_⟩
            intro r' hr' he
            apply hb r' hr'
            rw [List.getElem?_append_left (by omega)]
            exact he
          · have : r = l.length := by omega
            subst this
            simp at ha
            exact Or.inr ⟨ha.symm, rfl⟩
    | some old =>
      simp only
      have hm := List.mem_of_find?_eq_some hf
      have hk := List.find?_some hf
      simp at hk
      obtain ⟨oh, o⟩ := old
      simp at hk
      subst hk
      have hold := (h2 oh o).1 hm
      have holt : o < l.length := (List.getElem?_eq_some_iff.1 hold.1).1
      rw [if_neg (by simp; omega)]
      refine ⟨h1, ?_⟩
      intro h r
      rw [h2]
      simp only [FirstOn]
      constructor
      · rintro ⟨ha, hb⟩
        have hr : r < l.length := (List.getElem?_eq_some_iff.1 ha).1
        refine ⟨by rw [List.getElem?_append_left hr]; exact ha, ?_⟩
        intro r' hr'
        rw [List.getElem?_append_left (by omega)]
        exact hb r' hr'
      · rintro ⟨ha, hb⟩
        have hr : r < l.length + 1 := by simpa using (List.getElem?_eq_some_iff.1 ha).1
        by_cases hrl : r < l.length
        · rw [List.getElem?_append_left hrl] at ha
          refine ⟨ha, ?_⟩
          intro r' hr' he
          apply hb r' hr'
          rw [List.getElem?_append_left (by omega)]
          exact he
        · have : r = l.length := by omega
          subst this
          simp at ha
          subst ha
          exfalso
          apply hb o holt
          rw [List.getElem?_append_left holt]
          exact hold.1

theorem ins_perm (x : Nat) (l : List Nat) : (ins x l).Perm (x :: l) := by
  induction l with
  | nil => simp [ins]
  | cons y ys ih =>
    unfold ins
    split
    · exact List.Perm.refl _
    · exact (List.Perm.cons y ih).trans (List.Perm.swap x y ys)

theorem isort_perm (l : List Nat) : (isort l).Perm l := by
  induction l with
  | nil => simp [isort]
  | cons x xs ih => exact (ins_perm x (isort xs)).trans (List.Perm.cons x ih)

theorem firstOn_unique {hosts : List Nat} {h r r' : Nat} (a : FirstOn hosts h r) (b : FirstOn hosts h r') :
    r = r' := by
  rcases Nat.lt_trichotomy r r' with hlt | he | hlt
  · exact absurd a.1 (b.2 r hlt)
  · exact he
  · exact absurd b.1 (a.2 r' hlt)

theorem firstOn_exists {hosts : List Nat} {h : Nat} (hm : h ∈ hosts) : ∃ r, FirstOn hosts h r := by
  have hlt := List.idxOf_lt_length_of_mem hm
  refine ⟨hosts.idxOf h, by rw [List.getElem?_eq_getElem hlt]; simp, ?_⟩
  intro r' hr' he
  rw [List.getElem?_eq_getElem (by omega)] at he
  have := List.not_of_lt_findIdx hr'
  simp at this
  simp at he
  exact this he

/-- The sorted list of hosts. -/
theorem hostRank_iff (hosts : List Nat) (r k : Nat) :
    hostRank hosts r = some k ↔
      ∃ h, FirstOn hosts h r ∧ (isort ((uniqueHosts hosts).map (·.1)))[k]? = some h := by
  obtain ⟨h1, h2⟩ := uniqueHosts_inv hosts
  have hp := isort_perm ((uniqueHosts hosts).map (·.1))
  have hnd : (isort ((uniqueHosts hosts).map (·.1))).Nodup := hp.nodup_iff.2 h1
  unfold hostRank
  cases hr : hosts[r]? with
  | none =>
    simp only [reduceCtorEq, false_iff]
    rintro ⟨h, ⟨ha, _⟩, _⟩
    rw [hr] at ha
    cases ha
  | some h =>
    simp only
    obtain ⟨r0, hr0⟩ := firstOn_exists (List.mem_of_getElem? hr)
    have hm := (h2 h r0).2 hr0
    cases hf : (uniqueHosts hosts).find? (·.1 = h) with
    | none =>
      rw [List.find?_eq_none] at hf
      exact (hf _ hm (by simp)).elim
    | some e =>
      have hme := List.mem_of_find?_eq_some hf
      have hke := List.find?_some hf
      simp at hke
      obtain ⟨eh, er⟩ := e
      simp at hke
      subst hke
      have he := (h2 eh er).1 hme
      have hin : eh ∈ isort ((uniqueHosts hosts).map (·.1)) := by
        rw [hp.mem_iff]
        exact List.mem_map.2 ⟨_, hme, rfl⟩
      simp only [ne_eq]
      by_cases her : er = r
      · subst her
        simp only [not_true_eq_false, if_false, Option.some.injEq]
        constructor
        · rintro rfl
          refine ⟨eh, he, ?_⟩
          rw [List.getElem?_eq_getElem (List.idxOf_lt_length_of_mem hin)]
          simp
        · rintro ⟨h', hf', hk⟩
          have : h' = eh := by
            have := hf'.1
            rw [hr] at this
            simpa using this.symm
          subst this
          obtain ⟨hlt, hk⟩ := List.getElem?_eq_some_iff.1 hk
          rw [← hk]
          exact hnd.idxOf_getElem k hlt
      · rw [if_pos her]
        simp only [reduceCtorEq, false_iff]
        rintro ⟨h', hf', _⟩
        have : h' = eh := by
          have := hf'.1
          rw [hr] at this
          simpa using this.symm
        subst this
        exact her (firstOn_unique he hf')

theorem mem_positions (n hr nh i : Nat) (h0 : 0 < nh) (hlt : hr < nh) :
    i ∈ Slice.Spec.positions n (some (hr : Int)) none (nh : Int) ↔ i < n ∧ i % nh = hr := by
  unfold Slice.Spec.positions
  simp only [show (0 : Int) < nh by omega, if_true, List.mem_filter, List.mem_range, decide_eq_true_eq,
    Slice.Spec.Selects, Slice.Spec.ascFrom, Slice.Spec.ascTo]
  rw [if_neg (by omega)]
  constructor
  · rintro ⟨h1, h2, _, h4⟩
    refine ⟨h1, ?_⟩
    have h5 : (nh ∣ i - hr) := by
      have : ((i - hr : Nat) : Int) = (i : Int) - hr := by omega
      rw [← this] at h4
      exact Int.natCast_dvd_natCast.1 h4
    obtain ⟨c, hc⟩ := h5
    have : i = nh * c + hr := by omega
    rw [this, Nat.mul_add_mod, Nat.mod_eq_of_lt hlt]
  · rintro ⟨h1, h2⟩
    have hd := Nat.div_add_mod i nh
    have hle : hr ≤ i := by rw [← h2]; exact Nat.mod_le _ _
    refine ⟨h1, by omega, by omega, ⟨(i / nh : Nat), ?_⟩⟩
    push_cast
    rw [h2] at hd
    have : ((nh * (i / nh) + hr : Nat) : Int) = i := by rw [hd]
    push_cast at this
    linarith

/-! ## The property -/

/-- C54. A process takes part exactly if it has the lowest rank of its host. -/
theorem C54_takes_part (hosts : List Nat) (r : Nat) :
    (hostRank hosts r).isSome ↔ ∃ h, hosts[r]? = some h ∧ ∀ r' < r, hosts[r']? ≠ some h := by
  obtain ⟨h1, h2⟩ := uniqueHosts_inv hosts
  have hp := isort_perm ((uniqueHosts hosts).map (·.1))
  constructor
  · intro h
    obtain ⟨k, hk⟩ := Option.isSome_iff_exists.1 h
    obtain ⟨h, hf, _⟩ := (hostRank_iff hosts r k).1 hk
    exact ⟨h, hf⟩
  · rintro ⟨h, hf⟩
    have hin : h ∈ isort ((uniqueHosts hosts).map (·.1)) := by
      rw [hp.mem_iff]
      exact List.mem_map.2 ⟨_, (h2 h r).2 hf, rfl⟩
    obtain ⟨k, hlt, hk⟩ := List.getElem_of_mem hin
    rw [(hostRank_iff hosts r k).2 ⟨h, hf, by rw [List.getElem?_eq_getElem hlt, hk]⟩]
    rfl

/-- C54. Exactly one process of every host takes part. -/
theorem C54_one_per_host (hosts : List Nat) (h : Nat) (hm : h ∈ hosts) :
    ∃ r, (hosts[r]? = some h ∧ (hostRank hosts r).isSome) ∧
      ∀ r', hosts[r']? = some h ∧ (hostRank hosts r').isSome → r' = r := by
  obtain ⟨r, hr⟩ := firstOn_exists hm
  refine ⟨r, ⟨hr.1, (C54_takes_part hosts r).2 ⟨h, hr⟩⟩, ?_⟩
  rintro r' ⟨ha, hb⟩
  obtain ⟨h', hf⟩ := (C54_takes_part hosts r').1 hb
  have : h' = h := by
    have := hf.1
    rw [ha] at this
    simpa using this.symm
  subst this
  exact firstOn_unique hf hr

/-- C54. Every container in the list (by position) is zipped by exactly one process, and once. -/
theorem C54_each_container_once (hosts : List Nat) (ncont i : Nat) (hne : hosts ≠ []) (hi : i < ncont) :
    ∃ r < hosts.length, (myContainers hosts ncont r).count i = 1 ∧
      ∀ r', r' ≠ r → i ∉ myContainers hosts ncont r' := by
  obtain ⟨h1, h2⟩ := uniqueHosts_inv hosts
  have hp := isort_perm ((uniqueHosts hosts).map (·.1))
  have hnd : (isort ((uniqueHosts hosts).map (·.1))).Nodup := hp.nodup_iff.2 h1
  have hlen : (isort ((uniqueHosts hosts).map (·.1))).length = (uniqueHosts hosts).length := by
    rw [hp.length_eq]; simp
  have h0 : 0 < (uniqueHosts hosts).length := by
    obtain ⟨h, hm⟩ := List.exists_mem_of_ne_nil _ hne
    obtain ⟨r, hr⟩ := firstOn_exists hm
    exact List.length_pos_of_mem ((h2 h r).2 hr)
  have hk : i % (uniqueHosts hosts).length < (isort ((uniqueHosts hosts).map (·.1))).length := by
    rw [hlen]; exact Nat.mod_lt _ h0
  -- membership in general
  have hmem : ∀ r, i ∈ myContainers hosts ncont r ↔
      hostRank hosts r = some (i % (uniqueHosts hosts).length) := by
    intro r
    unfold myContainers
    cases hh : hostRank hosts r with
    | none => simp
    | some k =>
      obtain ⟨h, _, hg⟩ := (hostRank_iff hosts r k).1 hh
      have hklt : k < (uniqueHosts hosts).length := by
        rw [← hlen]; exact (List.getElem?_eq_some_iff.1 hg).1
      simp only
      rw [mem_positions _ _ _ _ h0 hklt]
      simp only [Option.some.injEq]
      constructor
      · rintro ⟨_, rfl⟩; rfl
      · intro he; exact ⟨hi, he.symm⟩
  have hhm : (isort ((uniqueHosts hosts).map (·.1)))[i % (uniqueHosts hosts).length] ∈
      (uniqueHosts hosts).map (·.1) := hp.mem_iff.1 (List.getElem_mem _)
  obtain ⟨⟨h, r⟩, hhr, hhe⟩ := List.mem_map.1 hhm
  have hfirst := (h2 h r).1 hhr
  have hrank : hostRank hosts r = some (i % (uniqueHosts hosts).length) := by
    rw [hostRank_iff]
    refine ⟨h, hfirst, ?_⟩
    rw [List.getElem?_eq_getElem hk]
    exact congrArg some hhe.symm
  refine ⟨r, (List.getElem?_eq_some_iff.1 hfirst.1).1, ?_, ?_⟩
  · apply List.count_eq_one_of_mem
    · unfold myContainers
      rw [hrank]
      simp only
      unfold Slice.Spec.positions
      simp only [show (0 : Int) < (uniqueHosts hosts).length by omega, if_true]
      exact List.Nodup.filter _ List.nodup_range
    · exact (hmem r).2 hrank
  · intro r' hr' hin
    have := (hmem r').1 hin
    rw [hostRank_iff] at this
    obtain ⟨h', hf', hg'⟩ := this
    rw [List.getElem?_eq_getElem hk] at hg'
    have hhh : h' = h := by
      have := Option.some.inj hg'
      rw [← this]
      exact hhe.symm
    subst hhh
    exact hr' (firstOn_unique hf' hfirst)

/-- Six processes on three hosts. -/
def exHosts : List Nat := [7, 3, 7, 5, 3, 3]

example : (List.range 6).map (hostRank exHosts) = [some 2, some 0, none, some 1, none, none] := by
  decide +kernel

example : (List.range 6).map (myContainers exHosts 7) = [[2, 5], [0, 3, 6], [], [1, 4], [], []] := by
  decide +kernel

end Verif.Tasks
