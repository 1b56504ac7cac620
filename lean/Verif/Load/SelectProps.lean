import Verif.Load.SelectLemmas

/-!
# C65: loading a container with selections along its axes
-/
namespace Verif.Load

open Verif.Dist (NArr MArr Comm IsBlock)
open Verif.Slice (FileSel PySlice)
open Verif.Reshape (InShape)

variable {α : Type}

/-- The selections for the axes pick the wanted positions. -/
theorem wanted_picks (kw : List (Str × FileSel)) (hkw : (kw.map Prod.fst).Nodup) (shape : List Nat) (axes : List (Option Str))
    (pss : List (List Nat)) (hl : pss.length = shape.length) (hla : axes.length = shape.length)
    (h : ∀ (k : Nat) n ax ps, shape[k]? = some n → axes[k]? = some ax → pss[k]? = some ps → Kept kw n ax ps) :
    PicksAll shape (dsetSel (selArgs kw) axes) pss := by
  refine ⟨by simp [dsetSel, hla], hl, fun k n s ps h1 h2 h3 => ?_⟩
  unfold dsetSel at h2
  rw [List.getElem?_map] at h2
  cases hax : axes[k]? with
  | none => rw [hax] at h2; cases h2
  | some ax =>
    rw [hax] at h2
    have h2 : (axisSel (selArgs kw) ax).getD (.slc {}) = s := Option.some.inj h2
    rcases h k n ax ps h1 hax h3 with ⟨a, t, ha, hask, hp⟩ | ⟨hno, hr⟩
    · rw [(axisSel_some kw hkw ax t).2 ⟨a, ha, hask⟩] at h2
      rw [← h2]
      exact hp
    · have : axisSel (selArgs kw) ax = none := by
        cases hs : axisSel (selArgs kw) ax with
        | none => rfl
        | some t =>
          obtain ⟨a, ha, hask⟩ := (axisSel_some kw hkw ax t).1 hs
          exact absurd hask (hno a t ha)
      rw [this] at h2
      rw [← h2]
      exact (picks_full n ps).2 hr

theorem dsetSel_list (kw : List (Str × FileSel)) (hkw : (kw.map Prod.fst).Nodup) (axes : List (Option Str)) (k : Nat) (l : List Int)
    (h : (dsetSel (selArgs kw) axes)[k]? = some (.list l)) : ∃ a, axes[k]? = some (some a) ∧ Asked kw a (.list l) := by
  unfold dsetSel at h
  rw [List.getElem?_map] at h
  cases hax : axes[k]? with
  | none => rw [hax] at h; cases h
  | some ax =>
    rw [hax] at h
    have h : (axisSel (selArgs kw) ax).getD (.slc {}) = .list l := Option.some.inj h
    cases hs : axisSel (selArgs kw) ax with
    | none => rw [hs] at h; cases h
    | some t =>
      rw [hs] at h
      obtain ⟨a, ha, hask⟩ := (axisSel_some kw hkw ax t).1 hs
      exact ⟨a, by rw [ha], by rw [show t = .list l from h] at hask; exact hask⟩

/-- One dataset. -/
theorem loadOne_ok (fmt : Format) (io : Io) (hp : 0 < io.p) (hq : 0 < io.q) (junk : List Nat → α) (distributed : Bool) (c : Comm)
    (hc : c.rank < c.size) (cls : Cls) (kw : List (Str × FileSel)) (hw : WellFormed cls kw)
    (hax : ∀ ax s, Asked kw ax s → ax ∈ cls.axes) (d : Str → Option Selv) (hd : makeSelections cls (selArgs kw) = .ok d)
    (e : FileDs α) (pss : List (List Nat)) (hpss : Wanted cls kw e pss) (he : CanRead fmt io distributed c cls kw e pss) :
    ∃ x, loadOne fmt io junk distributed c (some d) e = .ok x ∧
      ∀ R, Selected e.data pss R → Shows distributed c e.dist R x := by
  obtain ⟨t, hpath, ht⟩ := he.path
  obtain ⟨g1, g2, g3⟩ := getSel_spec cls kw hw hax d hd e.path t hpath ht
  -- the selection for all axes
  have hes : ∃ es, Covering e.data.shape.length (asTuple (getSel (some d) e.path)) es ∧ PicksAll e.data.shape es pss ∧
      es.countP FileSel.isList ≤ 1 ∧ (fmt = .zarr → .list [] ∉ es) ∧
      (fmt = .zarr → distributed = true → e.dist.isSome = true → es.any FileSel.isList = false) := by
    by_cases hA : ∃ axes, AxesOf cls e.path axes
    · obtain ⟨axes, hA⟩ := hA
      obtain ⟨hlen, hk⟩ := hpss.own axes hA
      refine ⟨_, hlen ▸ g1 axes hA, wanted_picks kw hw.kw _ axes pss hpss.length hlen hk, ?_, ?_, ?_⟩
      · apply countP_le_one
        intro k k' l l' a b
        obtain ⟨x, hx, hx'⟩ := dsetSel_list kw hw.kw axes k l a
        obtain ⟨y, hy, hy'⟩ := dsetSel_list kw hw.kw axes k' l' b
        exact he.lists axes hA k k' x y l l' hx hy hx' hy'
      · intro hz hm
        obtain ⟨k, hk⟩ := List.getElem?_of_mem hm
        obtain ⟨x, hx, hx'⟩ := dsetSel_list kw hw.kw axes k [] hk
        exact (he.zarr hz axes hA x [] (List.mem_of_getElem? hx) hx').1 rfl
      · intro hz hdist hsome
        rw [List.any_eq_false]
        intro s hm
        obtain ⟨k, hk⟩ := List.getElem?_of_mem hm
        cases s with
        | slc s => simp [FileSel.isList]
        | list l =>
          obtain ⟨x, hx, hx'⟩ := dsetSel_list kw hw.kw axes k l hk
          rcases (he.zarr hz axes hA x l (List.mem_of_getElem? hx) hx').2 with h | h
          · rw [h] at hdist; cases hdist
          · rw [h] at hsome; cases hsome
    · have hA : ∀ axes, ¬ AxesOf cls e.path axes := fun axes h => hA ⟨axes, h⟩
      refine ⟨List.replicate e.data.shape.length (.slc {}), ?_, ⟨by simp, hpss.length, ?_⟩, ?_, ?_, ?_⟩
      · rw [g2 hA]
        exact ⟨by simp, _, rfl⟩
      · intro k n s ps h1 h2 h3
        rw [hpss.other hA, List.getElem?_map, h1] at h3
        rw [(List.mem_replicate.1 (List.mem_of_getElem? h2)).2, picks_full]
        exact (Option.some.inj h3).symm
      · rw [List.countP_eq_zero.2 (fun x hx => by rw [(List.mem_replicate.1 hx).2]; simp [FileSel.isList])]
        omega
      · intro _ hm
        cases (List.mem_replicate.1 hm).2
      · intro _ _ _
        rw [List.any_eq_false]
        intro x hx
        rw [(List.mem_replicate.1 hx).2]
        simp [FileSel.isList]
  obtain ⟨es, hcov, hpick, h1, h2, h3⟩ := hes
  have hcommon : (distributed = false ∨ e.dist = none) →
      ∃ x, (match readCommon fmt e.data (getSel (some d) e.path) with
        | Except.ok A => Except.ok (Proto.Data.common A)
        | Except.error x => Except.error x) = .ok x ∧ ∀ R, Selected e.data pss R → Shows distributed c e.dist R x := by
    intro hn
    obtain ⟨A, hA, hAs⟩ := readCommon_ok fmt e.data he.axis _ es hcov pss hpick h1 h2
    rw [hA]
    refine ⟨_, rfl, fun R hR => ?_⟩
    obtain ⟨u1, u2⟩ := selected_unique e.data pss R A hR hAs
    exact .common A hn u1 u2
  unfold loadOne
  cases hdi : distributed with
  | false => rw [hdi] at hcommon; exact hcommon (.inl rfl)
  | true =>
    cases hds : e.dist with
    | none => rw [hdi, hds] at hcommon; exact hcommon (.inr rfl)
    | some axis =>
      obtain ⟨hnm, a, ha, htr⟩ := he.dist hdi axis hds
      have hread : readDist fmt io junk e.data axis c (getSel (some d) e.path) =
          fromFile fmt io junk e.data (asTuple (getSel (some d) e.path)) axis c := by
        cases hg : getSel (some d) e.path with
        | none => rfl
        | some v =>
          cases v with
          | tuple l => rfl
          | bare s => exact absurd hg (g3 hnm s)
      have hfmt : (fmt = .hdf5 ∧ es.countP FileSel.isList ≤ 1 ∧ Transferable io (pss.map List.length) a c.size) ∨
          (fmt = .zarr ∧ es.any FileSel.isList = false) := by
        cases fmt with
        | hdf5 => exact .inl ⟨rfl, h1, htr rfl⟩
        | zarr => exact .inr ⟨rfl, h3 rfl hdi (by rw [hds]; rfl)⟩
      obtain ⟨A, hA, hB⟩ := C10_nd_read_partial fmt io hp hq junk e.data _ es hcov pss hpick axis a ha c hc hfmt _
        (takePos_selected e.data pss)
      simp only
      rw [hread, hA]
      refine ⟨_, rfl, fun R hR => ?_⟩
      have hlenR : R.shape.length = e.data.shape.length := by rw [hR.shape, List.length_map, hpss.length]
      obtain ⟨A', hA', hB'⟩ := C10_nd_read_partial fmt io hp hq junk e.data _ es hcov pss hpick axis a ha c hc hfmt R hR
      rw [hA] at hA'
      rw [← Except.ok.inj hA'] at hB'
      exact .dist A axis a rfl rfl (by rw [hlenR]; exact ha) hB'

theorem mapM_forall₂ {β γ : Type} (f : β → Except PyErr γ) (P : β → γ → Prop) (l : List β)
    (h : ∀ x ∈ l, ∃ y, f x = .ok y ∧ P x y) : ∃ out, l.mapM f = .ok out ∧ List.Forall₂ P l out := by
  induction l with
  | nil => exact ⟨[], rfl, .nil⟩
  | cons x l ih =>
    obtain ⟨y, hy, hP⟩ := h x List.mem_cons_self
    obtain ⟨out, ho, hF⟩ := ih (fun z hz => h z (List.mem_cons_of_mem _ hz))
    refine ⟨y :: out, ?_, .cons hP hF⟩
    rw [List.mapM_cons, hy, ho]
    rfl

theorem kept_unique (kw : List (Str × FileSel)) (hkw : (kw.map Prod.fst).Nodup) (n : Nat) (ax : Option Str) (ps ps' : List Nat)
    (h : Kept kw n ax ps) (h' : Kept kw n ax ps') : ps = ps' := by
  rcases h with ⟨a, s, ha, hs, hp⟩ | ⟨hno, hr⟩ <;> rcases h' with ⟨a', s', ha', hs', hp'⟩ | ⟨hno', hr'⟩
  · rw [ha] at ha'
    obtain rfl := Option.some.inj ha'
    obtain rfl := asked_unique kw hkw _ _ _ hs hs'
    exact picks_unique n s ps ps' hp hp'
  · exact absurd hs (hno' a s ha)
  · exact absurd hs' (hno a' s' ha')
  · rw [hr, hr']

theorem wanted_unique (cls : Cls) (kw : List (Str × FileSel)) (hkw : (kw.map Prod.fst).Nodup) (e : FileDs α)
    (pss pss' : List (List Nat)) (h : Wanted cls kw e pss) (h' : Wanted cls kw e pss') : pss = pss' := by
  by_cases hA : ∃ axes, AxesOf cls e.path axes
  · obtain ⟨axes, hA⟩ := hA
    obtain ⟨hl, hk⟩ := h.own axes hA
    obtain ⟨-, hk'⟩ := h'.own axes hA
    apply List.ext_getElem?
    intro k
    by_cases hlt : k < e.data.shape.length
    · have l1 : k < pss.length := by rw [h.length]; exact hlt
      have l2 : k < pss'.length := by rw [h'.length]; exact hlt
      have l3 : k < axes.length := by omega
      rw [List.getElem?_eq_getElem l1, List.getElem?_eq_getElem l2]
      exact congrArg some (kept_unique kw hkw _ _ _ _
        (hk k _ _ _ (List.getElem?_eq_getElem hlt) (List.getElem?_eq_getElem l3) (List.getElem?_eq_getElem l1))
        (hk' k _ _ _ (List.getElem?_eq_getElem hlt) (List.getElem?_eq_getElem l3) (List.getElem?_eq_getElem l2)))
    · rw [List.getElem?_eq_none (by rw [h.length]; omega), List.getElem?_eq_none (by rw [h'.length]; omega)]
  · have hA : ∀ axes, ¬ AxesOf cls e.path axes := fun axes h => hA ⟨axes, h⟩
    rw [h.other hA, h'.other hA]

/-- **C65** (datasets). Loading a file with a class and with selections along axes of the class gives every
dataset of the class restricted, along each of its axes, to what was asked for that axis, and the index map
of each axis restricted in the same way; all other datasets are loaded whole. Every process has the whole of
a common dataset and its block of a distributed one. -/
theorem C65_load_partial (fmt : Format) (io : Io) (hp : 0 < io.p) (hq : 0 < io.q) (junk : List Nat → α) (distributed : Bool)
    (c : Comm) (hc : c.rank < c.size) (cls : Cls) (kw : List (Str × FileSel)) (hw : WellFormed cls kw)
    (hax : ∀ ax s, Asked kw ax s → ax ∈ cls.axes) (file : List (FileDs α))
    (hfile : ∀ e ∈ file, ∃ pss, Wanted cls kw e pss ∧ CanRead fmt io distributed c cls kw e pss) :
    ∃ out, load fmt io junk distributed c (some cls) kw file = .ok out ∧
      List.Forall₂ (fun e x => ∀ pss R, Wanted cls kw e pss → Selected e.data pss R → Shows distributed c e.dist R x)
        file out := by
  have hd := makeSelections_ok cls kw hax
  unfold load
  simp only
  rw [hd]
  simp only
  apply mapM_forall₂
  intro e he
  obtain ⟨pss, h1, h2⟩ := hfile e he
  obtain ⟨x, hx, hS⟩ := loadOne_ok fmt io hp hq junk distributed c hc cls kw hw hax _ hd e pss h1 h2
  refine ⟨x, hx, fun pss' R h' hR => ?_⟩
  rw [wanted_unique cls kw hw.kw e pss' pss h' h1] at hR
  exact hS R hR

theorem shows_shape (distributed : Bool) (c : Comm) (dist : Option Int) (R : NArr α) (x : Proto.Data α)
    (h : Shows distributed c dist R x) : wholeShape x = R.shape := by
  cases h with
  | common A _ h1 _ => exact h1
  | dist A _ _ _ _ _ hB => exact hB.gshape

/-- **C65** (lengths). If in the file a dataset of the class is as long along an axis as the index map of that
axis, then so it is after loading with selections. -/
theorem C65_lengths_partial (fmt : Format) (io : Io) (hp : 0 < io.p) (hq : 0 < io.q) (junk : List Nat → α) (distributed : Bool)
    (c : Comm) (hc : c.rank < c.size) (cls : Cls) (kw : List (Str × FileSel)) (hw : WellFormed cls kw)
    (hax : ∀ ax s, Asked kw ax s → ax ∈ cls.axes) (file : List (FileDs α))
    (hfile : ∀ e ∈ file, ∃ pss, Wanted cls kw e pss ∧ CanRead fmt io distributed c cls kw e pss) :
    ∃ out, load fmt io junk distributed c (some cls) kw file = .ok out ∧
      ∀ (i j : Nat) e e' x x', file[i]? = some e → out[i]? = some x → file[j]? = some e' → out[j]? = some x' →
        ∀ name axes (k : Nat) ax n, (name, axes) ∈ cls.spec → e.path = "/".toList ++ name → axes[k]? = some (some ax) →
          ax ∈ cls.axes → e'.path = "/index_map/".toList ++ ax →
          e.data.shape[k]? = some n → e'.data.shape = [n] →
          ∃ m, (wholeShape x)[k]? = some m ∧ wholeShape x' = [m] := by
  obtain ⟨out, hout, hF⟩ := C65_load_partial fmt io hp hq junk distributed c hc cls kw hw hax file hfile
  refine ⟨out, hout, ?_⟩
  intro i j e e' x x' hi hxi hj hxj name axes k ax n hname hpath hk hmem hpath' hn hn'
  have hget : ∀ (i : Nat) e x, file[i]? = some e → out[i]? = some x →
      ∀ pss R, Wanted cls kw e pss → Selected e.data pss R → Shows distributed c e.dist R x := by
    clear hi hxi hj hxj hout hfile
    induction hF with
    | nil => intro i e x h; cases h
    | cons h1 h2 ih =>
      intro i e x a b
      cases i with
      | zero =>
        rw [← Option.some.inj a, ← Option.some.inj b]
        exact h1
      | succ i => exact ih i e x (by simpa using a) (by simpa using b)
  obtain ⟨pss, hW, -⟩ := hfile e (List.mem_of_getElem? hi)
  obtain ⟨pss', hW', -⟩ := hfile e' (List.mem_of_getElem? hj)
  have s1 := shows_shape _ _ _ _ _ (hget i e x hi hxi pss _ hW (takePos_selected _ _))
  have s2 := shows_shape _ _ _ _ _ (hget j e' x' hj hxj pss' _ hW' (takePos_selected _ _))
  obtain ⟨-, hk1⟩ := hW.own axes (.inl ⟨name, hname, hpath⟩)
  obtain ⟨-, hk2⟩ := hW'.own [some ax] (.inr ⟨ax, hmem, hpath', rfl⟩)
  have hkl : k < pss.length := by
    rw [hW.length]
    exact (List.getElem?_eq_some_iff.1 hn).1
  have hl' : pss'.length = 1 := by rw [hW'.length, hn']; rfl
  match pss', hl' with
  | [ps'], _ =>
    have e1 := hk1 k n _ _ hn hk (List.getElem?_eq_getElem hkl)
    have e2 := hk2 0 n (some ax) ps' (by rw [hn']; rfl) rfl rfl
    have := kept_unique kw hw.kw n _ _ _ e1 e2
    refine ⟨ps'.length, ?_, by rw [s2]; rfl⟩
    rw [s1]
    show (pss.map List.length)[k]? = _
    rw [List.getElem?_map, List.getElem?_eq_getElem hkl, this]
    rfl

/-- **C65** (unknown axis). A selection along an axis the class does not have is refused. -/
theorem C65_unknown (fmt : Format) (io : Io) (junk : List Nat → α) (distributed : Bool) (c : Comm) (cls : Cls)
    (kw : List (Str × FileSel)) (ax : Str) (s : FileSel) (hask : Asked kw ax s) (hno : ax ∉ cls.axes) (file : List (FileDs α)) :
    load fmt io junk distributed c (some cls) kw file = .error .runtimeError := by
  unfold load
  simp only
  unfold makeSelections
  rw [if_neg]
  rw [List.all_eq_true]
  intro h
  have := h (ax, s) ((mem_selArgs kw ax s).2 hask)
  exact hno (by simpa using this)

/-! ### A case: two selected axes, one dataset distributed over two processes -/

def skyCls : Cls := ⟨["freq".toList, "time".toList, "pol".toList],
  [("vis".toList, [some "freq".toList, some "time".toList]), ("gain".toList, [some "pol".toList])]⟩

def skyKw : List (Str × FileSel) := [("freq_sel".toList, .list [0, 2]), ("time_sel".toList, .slc ⟨some 1, none, none⟩)]

def ramp (n : Nat) : NArr Nat := ⟨[n], fun i => i.getD 0 0⟩

def skyFile : List (FileDs Nat) :=
  [⟨"/vis".toList, ⟨[3, 4], fun i => 10 * i.getD 0 0 + i.getD 1 0⟩, some 1⟩,
   ⟨"/gain".toList, ramp 2, none⟩,
   ⟨"/index_map/freq".toList, ramp 3, none⟩,
   ⟨"/index_map/time".toList, ramp 4, none⟩]

/-- Shape in memory, whole shape and an element of each dataset. -/
def report (r : Except PyErr (List (Proto.Data Nat))) (i : List Nat) : Option (List (List Nat × List Nat × Nat)) :=
  match r with
  | .ok l => some (l.map fun x => (x.loc.shape, wholeShape x, x.loc.val i))
  | .error _ => none

-- times 1, 2 are on the first process and 3 on the second; the element shown is frequency 2, time 3
example : report (load .hdf5 (smallIo false) (fun _ => 99) true ⟨0, 2, 1⟩ (some skyCls) skyKw skyFile) [1, 0] =
    some [([2, 1], [2, 3], 23), ([2], [2], 1), ([2], [2], 2), ([3], [3], 2)] := by decide +kernel
example : report (load .hdf5 (smallIo false) (fun _ => 99) false ⟨0, 1, 0⟩ (some skyCls) skyKw skyFile) [1, 2] =
    some [([2, 3], [2, 3], 23), ([2], [2], 1), ([2], [2], 2), ([3], [3], 2)] := by decide +kernel
example : ∃ e, load .hdf5 (smallIo false) (fun _ => 99) false ⟨0, 1, 0⟩ (some skyCls) [("ra_sel".toList, .list [0])] skyFile =
    .error e := ⟨_, C65_unknown _ _ _ _ _ skyCls _ "ra".toList (.list [0])
      (by unfold Asked; decide) (by decide) _⟩

theorem sky_wellFormed : WellFormed skyCls skyKw := ⟨by decide, by decide, by decide⟩

theorem sky_axes (path : Str) (axes : List (Option Str)) (h : AxesOf skyCls path axes) :
    (path = "/vis".toList ∧ axes = [some "freq".toList, some "time".toList]) ∨ (path = "/gain".toList ∧ axes = [some "pol".toList]) ∨
    (path = "/index_map/freq".toList ∧ axes = [some "freq".toList]) ∨ (path = "/index_map/time".toList ∧ axes = [some "time".toList]) ∨
    (path = "/index_map/pol".toList ∧ axes = [some "pol".toList]) := by
  rcases h with ⟨name, hm, rfl⟩ | ⟨ax, hm, rfl, rfl⟩
  · unfold skyCls at hm
    rcases List.mem_cons.1 hm with e | hm
    · obtain ⟨rfl, rfl⟩ := Prod.mk.inj e
      exact .inl ⟨rfl, rfl⟩
    · obtain ⟨rfl, rfl⟩ := Prod.mk.inj (List.mem_singleton.1 hm)
      exact .inr (.inl ⟨rfl, rfl⟩)
  · unfold skyCls at hm
    rcases List.mem_cons.1 hm with rfl | hm
    · exact .inr (.inr (.inl ⟨rfl, rfl⟩))
    · rcases List.mem_cons.1 hm with rfl | hm
      · exact .inr (.inr (.inr (.inl ⟨rfl, rfl⟩)))
      · rw [List.mem_singleton.1 hm]
        exact .inr (.inr (.inr (.inr ⟨rfl, rfl⟩)))

theorem sky_asked (ax : Str) (s : FileSel) : Asked skyKw ax s ↔
    (ax = "freq".toList ∧ s = .list [0, 2]) ∨ (ax = "time".toList ∧ s = .slc ⟨some 1, none, none⟩) := by
  unfold Asked skyKw
  simp only [List.mem_cons, Prod.mk.injEq, List.not_mem_nil, or_false]
  have h1 : "freq_sel".toList = "freq".toList ++ "_sel".toList := by decide
  have h2 : "time_sel".toList = "time".toList ++ "_sel".toList := by decide
  rw [h1, h2, List.append_left_inj, List.append_left_inj]

theorem sky_freq : Kept skyKw 3 (some "freq".toList) [0, 2] :=
  .inl ⟨_, _, rfl, (sky_asked _ _).2 (.inl ⟨rfl, rfl⟩), .list [0, 2] (by decide) (by decide)⟩

theorem sky_time : Kept skyKw 4 (some "time".toList) [1, 2, 3] :=
  .inl ⟨_, _, rfl, (sky_asked _ _).2 (.inr ⟨rfl, rfl⟩), .slc ⟨some 1, none, none⟩ (by decide) (by decide)⟩

theorem sky_pol (n : Nat) : Kept skyKw n (some "pol".toList) (List.range n) := by
  refine .inr ⟨fun a s ha hs => ?_, rfl⟩
  obtain rfl := Option.some.inj ha
  rcases (sky_asked _ _).1 hs with ⟨h, -⟩ | ⟨h, -⟩ <;> revert h <;> decide

/-- All hypotheses of `C65_load_partial` can be met. -/
example : ∀ e ∈ skyFile, ∃ pss, Wanted skyCls skyKw e pss ∧ CanRead .hdf5 (smallIo false) true ⟨0, 2, 1⟩ skyCls skyKw e pss := by
  have hlists : ∀ path axes, AxesOf skyCls path axes → ∀ (k k' : Nat) a a' l l', axes[k]? = some (some a) →
      axes[k']? = some (some a') → Asked skyKw a (.list l) → Asked skyKw a' (.list l') → k = k' := by
    intro path axes hA k k' a a' l l' h1 h2 h3 h4
    rcases (sky_asked _ _).1 h3 with ⟨rfl, -⟩ | ⟨-, h⟩
    · rcases (sky_asked _ _).1 h4 with ⟨rfl, -⟩ | ⟨-, h⟩
      · have hn : axes.Nodup := by
          rcases sky_axes path axes hA with ⟨-, rfl⟩ | ⟨-, rfl⟩ | ⟨-, rfl⟩ | ⟨-, rfl⟩ | ⟨-, rfl⟩ <;> decide
        exact (List.getElem?_inj (List.getElem?_eq_some_iff.1 h1).1 hn).1 (h1.trans h2.symm)
      · cases h
    · cases h
  intro e he
  have hone : ∀ (path : Str) (n : Nat) (ps : List Nat) (ax : Str), path = "/index_map/".toList ++ ax ∨ path = "/gain".toList ∧ ax = "pol".toList →
      Kept skyKw n (some ax) ps → path ≠ "/vis".toList → (∃ t, path = "/".toList ++ t ∧ t.head? ≠ some '/') →
      (∀ axes, AxesOf skyCls path axes → axes = [some ax]) →  (∃ axes, AxesOf skyCls path axes) →
      ∃ pss, Wanted skyCls skyKw ⟨path, ramp n, none⟩ pss ∧
        CanRead .hdf5 (smallIo false) true ⟨0, 2, 1⟩ skyCls skyKw ⟨path, ramp n, none⟩ pss := by
    intro path n ps ax _ hK _ hpath hu hex
    refine ⟨[ps], ⟨rfl, fun axes hA => ?_, fun hno => ?_⟩, ⟨hpath, by simp [ramp], fun axes hA => hlists path axes hA, by simp, ?_⟩⟩
    · rw [hu axes hA]
      refine ⟨rfl, fun k m a ps' h1 h2 h3 => ?_⟩
      match k with
      | 0 =>
        obtain rfl := Option.some.inj h1
        obtain rfl := Option.some.inj h2
        obtain rfl := Option.some.inj h3
        exact hK
      | k + 1 => cases h1
    · obtain ⟨axes, hA⟩ := hex
      exact absurd hA (hno axes)
    · intro _ axis h
      cases h
  unfold skyFile at he
  simp only [List.mem_cons, List.not_mem_nil, or_false] at he
  rcases he with rfl | rfl | rfl | rfl
  · have hv : ∀ axes, AxesOf skyCls "/vis".toList axes → axes = [some "freq".toList, some "time".toList] := by
      intro axes hA
      rcases sky_axes _ axes hA with ⟨-, rfl⟩ | ⟨h, -⟩ | ⟨h, -⟩ | ⟨h, -⟩ | ⟨h, -⟩
      · rfl
      all_goals exact absurd h (by decide)
    refine ⟨[[0, 2], [1, 2, 3]], ⟨rfl, fun axes hA => ?_, fun hno => ?_⟩,
      ⟨⟨"vis".toList, rfl, by decide⟩, by simp, fun axes hA => hlists _ axes hA, by simp, ?_⟩⟩
    · rw [hv axes hA]
      refine ⟨rfl, fun k m a ps' h1 h2 h3 => ?_⟩
      match k with
      | 0 =>
        obtain rfl := Option.some.inj h1
        obtain rfl := Option.some.inj h2
        obtain rfl := Option.some.inj h3
        exact sky_freq
      | 1 =>
        obtain rfl := Option.some.inj h1
        obtain rfl := Option.some.inj h2
        obtain rfl := Option.some.inj h3
        exact sky_time
      | k + 2 => cases h1
    · exact absurd (.inl ⟨"vis".toList, by decide, rfl⟩) (hno [some "freq".toList, some "time".toList])
    · intro _ axis h
      obtain rfl := Option.some.inj h
      refine ⟨fun ax e => ?_, 1, ⟨by decide, .inl rfl⟩, fun _ => .inl rfl⟩
      have := congrArg List.length e
      rw [List.length_append] at this
      have h4 : "/vis".toList.length = 4 := by decide
      have h11 : "/index_map/".toList.length = 11 := by decide
      rw [h4, h11] at this
      omega
  · refine hone _ 2 (List.range 2) "pol".toList (.inr ⟨rfl, rfl⟩) (sky_pol 2) (by decide) ⟨"gain".toList, rfl, by decide⟩ (fun axes hA => ?_)
      ⟨[some "pol".toList], .inl ⟨"gain".toList, by decide, rfl⟩⟩
    rcases sky_axes _ axes hA with ⟨h, -⟩ | ⟨-, rfl⟩ | ⟨h, -⟩ | ⟨h, -⟩ | ⟨h, -⟩
    · exact absurd h (by decide)
    · rfl
    all_goals exact absurd h (by decide)
  · refine hone _ 3 _ "freq".toList (.inl (by decide)) sky_freq (by decide) ⟨"index_map/freq".toList, by decide, by decide⟩ (fun axes hA => ?_)
      ⟨[some "freq".toList], .inr ⟨"freq".toList, by decide, by decide, rfl⟩⟩
    rcases sky_axes _ axes hA with ⟨h, -⟩ | ⟨h, -⟩ | ⟨-, rfl⟩ | ⟨h, -⟩ | ⟨h, -⟩
    · exact absurd h (by decide)
    · exact absurd h (by decide)
    · rfl
    all_goals exact absurd h (by decide)
  · refine hone _ 4 _ "time".toList (.inl (by decide)) sky_time (by decide) ⟨"index_map/time".toList, by decide, by decide⟩ (fun axes hA => ?_)
      ⟨[some "time".toList], .inr ⟨"time".toList, by decide, by decide, rfl⟩⟩
    rcases sky_axes _ axes hA with ⟨h, -⟩ | ⟨h, -⟩ | ⟨h, -⟩ | ⟨-, rfl⟩ | ⟨h, -⟩
    · exact absurd h (by decide)
    · exact absurd h (by decide)
    · exact absurd h (by decide)
    · rfl
    · exact absurd h (by decide)

/-! ### Where the property fails -/

/-- C65: if the class that is asked to load the file is not a container class, the selections are ignored, even
if the file says which class it is of. -/
theorem C65_base_violated :
    report (load .hdf5 (smallIo false) (fun _ => 99) false ⟨0, 1, 0⟩ none skyKw skyFile) [2, 3] =
      some [([3, 4], [3, 4], 23), ([2], [2], 2), ([3], [3], 2), ([4], [4], 2)] := by decide +kernel

/-- C65: a dataset that is in the file but that the class does not declare is not restricted (its index map is). The
tables of a table class are of this kind as long as the class has not been instantiated. -/
theorem C65_undeclared_violated :
    report (load .hdf5 (smallIo false) (fun _ => 99) false ⟨0, 1, 0⟩ (some skyCls) skyKw
      [⟨"/weight".toList, ramp 3, none⟩, ⟨"/index_map/freq".toList, ramp 3, none⟩]) [1] =
      some [([3], [3], 1), ([2], [2], 2)] := by decide +kernel

/-- C65: two axes with lists, from a Zarr file: the lists are taken in pairs. The dataset loses an axis, without
an error. -/
theorem C65_pairs_violated :
    report (load .zarr (smallIo false) (fun _ => 99) false ⟨0, 1, 0⟩ (some skyCls)
      [("freq_sel".toList, .list [0, 2]), ("time_sel".toList, .list [1, 3])] skyFile) [1] =
      some [([2], [2], 23), ([2], [2], 1), ([2], [2], 2), ([2], [2], 3)] := by decide +kernel

/-- C65: two axes with lists, from an HDF5 file: the file cannot be loaded. -/
theorem C65_two_lists_violated :
    load .hdf5 (smallIo false) (fun _ => 99) false ⟨0, 1, 0⟩ (some skyCls)
      [("freq_sel".toList, .list [0, 2]), ("time_sel".toList, .list [1, 3])] skyFile = .error .typeError := by rfl

/-- C65: a list in an order other than increasing can be loaded from Zarr but not from HDF5. -/
theorem C65_order_violated :
    load .hdf5 (smallIo false) (fun _ => 99) false ⟨0, 1, 0⟩ (some skyCls) [("freq_sel".toList, .list [2, 0])] skyFile =
      .error .typeError ∧
    report (load .zarr (smallIo false) (fun _ => 99) false ⟨0, 1, 0⟩ (some skyCls) [("freq_sel".toList, .list [2, 0])] skyFile)
      [0, 3] = some [([2, 4], [2, 4], 23), ([2], [2], 0), ([2], [2], 2), ([4], [4], 0)] := by
  refine ⟨by rfl, by decide +kernel⟩

end Verif.Load
