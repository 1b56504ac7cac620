import Verif.Load.SelectSpec
import Verif.Load.ReadProps
import Verif.Dist.IndexLemmas
import Mathlib.Data.List.Nodup

/-!
# Lemmas for loading with selections
-/
namespace Verif.Load

open Verif.Dist (NArr MArr Comm IsBlock)
open Verif.Slice (FileSel PySlice)
open Verif.Reshape (InShape)

variable {α : Type}

/-! ### Keyword arguments -/

theorem mem_selArgs (kw : List (Str × FileSel)) (ax : Str) (s : FileSel) :
    (ax, s) ∈ selArgs kw ↔ Asked kw ax s := by
  unfold selArgs Asked
  rw [List.mem_filterMap]
  constructor
  · rintro ⟨x, hx, h⟩
    split at h
    · rename_i hs
      obtain ⟨t, ht⟩ := List.isSuffixOf_iff_suffix.1 hs
      have h' := Option.some.inj h
      have e1 : x.1.take (x.1.length - 4) = t := by
        rw [← ht, List.length_append]
        simp
      rw [e1] at h'
      obtain ⟨rfl, rfl⟩ := Prod.mk.inj h'
      rw [ht]
      exact hx
    · cases h
  · intro h
    refine ⟨_, h, ?_⟩
    simp only
    rw [if_pos (List.isSuffixOf_iff_suffix.2 (List.suffix_append _ _))]
    congr 2
    rw [List.length_append]
    simp

theorem lookup_of_mem {β : Type} (l : List (Str × β)) (h : ∀ k v v', (k, v) ∈ l → (k, v') ∈ l → v = v') (k : Str) (v : β)
    (hm : (k, v) ∈ l) : l.lookup k = some v := by
  induction l with
  | nil => cases hm
  | cons x l ih =>
    obtain ⟨k', v'⟩ := x
    rw [List.lookup_cons]
    by_cases hk : k = k'
    · subst hk
      simp only [beq_self_eq_true]
      rw [h k v' v List.mem_cons_self hm]
    · have : (k == k') = false := by simpa using hk
      rw [this]
      simp only
      rcases List.mem_cons.1 hm with e | hm
      · exact absurd (Prod.mk.inj e).1 hk
      · exact ih (fun k v v' a b => h k v v' (List.mem_cons_of_mem _ a) (List.mem_cons_of_mem _ b)) hm

theorem mem_of_lookup {β : Type} (l : List (Str × β)) (k : Str) (v : β) (h : l.lookup k = some v) : (k, v) ∈ l := by
  induction l with
  | nil => cases h
  | cons x l ih =>
    obtain ⟨k', v'⟩ := x
    rw [List.lookup_cons] at h
    by_cases hk : k = k'
    · subst hk
      simp only [beq_self_eq_true] at h
      rw [Option.some.inj h]
      exact List.mem_cons_self
    · have : (k == k') = false := by simpa using hk
      rw [this] at h
      exact List.mem_cons_of_mem _ (ih h)

theorem nodup_fun {β γ : Type} (l : List (β × γ)) (h : (l.map Prod.fst).Nodup) (k : β) (v v' : γ) (h1 : (k, v) ∈ l)
    (h2 : (k, v') ∈ l) : v = v' := by
  induction l with
  | nil => cases h1
  | cons x l ih =>
    rw [List.map_cons, List.nodup_cons] at h
    rcases List.mem_cons.1 h1 with e1 | m1 <;> rcases List.mem_cons.1 h2 with e2 | m2
    · rw [← e1] at e2
      exact (Prod.mk.inj e2).2.symm
    · exact absurd (List.mem_map.2 ⟨_, m2, by rw [← e1]⟩) h.1
    · exact absurd (List.mem_map.2 ⟨_, m1, by rw [← e2]⟩) h.1
    · exact ih h.2 m1 m2

theorem asked_unique (kw : List (Str × FileSel)) (h : (kw.map Prod.fst).Nodup) (ax : Str) (s s' : FileSel)
    (h1 : Asked kw ax s) (h2 : Asked kw ax s') : s = s' := nodup_fun kw h _ _ _ h1 h2

theorem axisSel_some (kw : List (Str × FileSel)) (h : (kw.map Prod.fst).Nodup) (ax : Option Str) (s : FileSel) :
    axisSel (selArgs kw) ax = some s ↔ ∃ a, ax = some a ∧ Asked kw a s := by
  cases ax with
  | none => simp [axisSel]
  | some a =>
    simp only [axisSel, Option.some.injEq, exists_eq_left']
    constructor
    · intro hl
      exact (mem_selArgs kw a s).1 (mem_of_lookup _ _ _ hl)
    · intro hl
      exact lookup_of_mem _ (fun k v v' a b => asked_unique kw h k v v' ((mem_selArgs _ _ _).1 a) ((mem_selArgs _ _ _).1 b)) _ _
        ((mem_selArgs kw a s).2 hl)

/-! ### The dictionary of selections -/

theorem spec_other (args : List (Str × FileSel)) (spec : List (Str × List (Option Str))) (f : Str → Option Selv) (p : Str)
    (h : ∀ x ∈ spec, p ≠ '/' :: x.1) :
    spec.foldl (fun d x => if relevant args x.2 then dput d ('/' :: x.1) (.tuple (dsetSel args x.2)) else d) f p = f p := by
  induction spec generalizing f with
  | nil => rfl
  | cons x spec ih =>
    rw [List.foldl_cons, ih _ (fun y hy => h y (List.mem_cons_of_mem _ hy))]
    split
    · unfold dput
      rw [if_neg (h x List.mem_cons_self)]
    · rfl

theorem spec_own (args : List (Str × FileSel)) (spec : List (Str × List (Option Str))) (hn : (spec.map Prod.fst).Nodup)
    (f : Str → Option Selv) (name : Str) (axes : List (Option Str)) (h : (name, axes) ∈ spec) :
    spec.foldl (fun d x => if relevant args x.2 then dput d ('/' :: x.1) (.tuple (dsetSel args x.2)) else d) f ('/' :: name) =
      if relevant args axes then some (.tuple (dsetSel args axes)) else f ('/' :: name) := by
  induction spec generalizing f with
  | nil => cases h
  | cons x spec ih =>
    rw [List.map_cons, List.nodup_cons] at hn
    rw [List.foldl_cons]
    rcases List.mem_cons.1 h with e | h
    · rw [spec_other]
      · rw [← e]
        simp only
        split
        · unfold dput
          rw [if_pos rfl]
        · rfl
      · rintro y hy e'
        rw [← e] at hn
        exact hn.1 (List.mem_map.2 ⟨y, hy, (List.cons.inj e').2.symm⟩)
    · rw [ih hn.2 _ h]
      have hne : name ≠ x.1 := fun e => hn.1 (List.mem_map.2 ⟨_, h, e⟩)
      split
      · rfl
      · split
        · unfold dput
          rw [if_neg (by simpa using hne)]
        · rfl

theorem maps_other (args : List (Str × FileSel)) (f : Str → Option Selv) (p : Str) (h : ∀ x ∈ args, p ≠ mapPath x.1) :
    args.foldl (fun d x => dput d (mapPath x.1) (.bare x.2)) f p = f p := by
  induction args generalizing f with
  | nil => rfl
  | cons x args ih =>
    rw [List.foldl_cons, ih _ (fun y hy => h y (List.mem_cons_of_mem _ hy))]
    unfold dput
    rw [if_neg (h x List.mem_cons_self)]

theorem maps_own (args : List (Str × FileSel)) (hu : ∀ k v v', (k, v) ∈ args → (k, v') ∈ args → v = v') (f : Str → Option Selv)
    (ax : Str) (s : FileSel) (h : (ax, s) ∈ args) :
    args.foldl (fun d x => dput d (mapPath x.1) (.bare x.2)) f (mapPath ax) = some (.bare s) := by
  induction args generalizing f with
  | nil => cases h
  | cons x args ih =>
    rw [List.foldl_cons]
    by_cases hm : (ax, s) ∈ args
    · exact ih (fun k v v' a b => hu k v v' (List.mem_cons_of_mem _ a) (List.mem_cons_of_mem _ b)) _ hm
    · rcases List.mem_cons.1 h with e | h
      · rw [maps_other]
        · unfold dput
          rw [← e, if_pos rfl]
        · rintro y hy e'
          have e' := List.append_cancel_left e'
          refine hm ?_
          rw [hu ax s y.2 h (List.mem_cons_of_mem _ (by rw [e']; exact hy)), e']
          exact hy
      · exact absurd h hm

/-- The tuple that a selection stands for. -/
def asTuple : Option Selv → Option (List FileSel)
  | none => none
  | some (.tuple l) => some l
  | some (.bare s) => some [s]

theorem makeSelections_ok (cls : Cls) (kw : List (Str × FileSel)) (hax : ∀ ax s, Asked kw ax s → ax ∈ cls.axes) :
    makeSelections cls (selArgs kw) = .ok ((selArgs kw).foldl (fun d x => dput d (mapPath x.1) (.bare x.2))
      (cls.spec.foldl (fun d x => if relevant (selArgs kw) x.2 then dput d ('/' :: x.1) (.tuple (dsetSel (selArgs kw) x.2)) else d)
        (fun _ => none))) := by
  unfold makeSelections
  rw [if_pos]
  rw [List.all_eq_true]
  rintro ⟨ax, s⟩ hx
  simpa using hax ax s ((mem_selArgs _ _ _).1 hx)

theorem dsetSel_irrelevant (args : List (Str × FileSel)) (axes : List (Option Str)) (h : relevant args axes = false) :
    dsetSel args axes = List.replicate axes.length (.slc {}) := by
  unfold dsetSel
  rw [List.eq_replicate_iff]
  refine ⟨by simp, fun b hb => ?_⟩
  obtain ⟨ax, hax, rfl⟩ := List.mem_map.1 hb
  unfold relevant at h
  have := List.any_eq_false.1 h ax hax
  cases hs : axisSel args ax with
  | none => rfl
  | some x => rw [hs] at this; simp at this

/-- The selection that is found for a dataset. -/
theorem getSel_spec (cls : Cls) (kw : List (Str × FileSel)) (hw : WellFormed cls kw)
    (hax : ∀ ax s, Asked kw ax s → ax ∈ cls.axes) (d : Str → Option Selv) (hd : makeSelections cls (selArgs kw) = .ok d)
    (path t : Str) (hp : path = '/' :: t) (ht : t.head? ≠ some '/') :
    (∀ axes, AxesOf cls path axes →
      Covering axes.length (asTuple (getSel (some d) path)) (dsetSel (selArgs kw) axes)) ∧
    ((∀ axes, ¬ AxesOf cls path axes) → getSel (some d) path = none) ∧
    ((∀ ax, path ≠ mapPath ax) → ∀ s, getSel (some d) path ≠ some (.bare s)) := by
  rw [makeSelections_ok cls kw hax] at hd
  have hd := Except.ok.inj hd
  have htail : d t = none := by
    rw [← hd, maps_other, spec_other]
    · intro x _ e
      rw [e] at ht
      exact ht rfl
    · intro x _ e
      rw [e] at ht
      exact ht rfl
  have hget : getSel (some d) path = d path := by
    unfold getSel
    simp only
    rw [hp, List.tail_cons]
    cases h : d ('/' :: t) with
    | none => exact htail
    | some x => rfl
  have hnomap : ∀ name, '/' ∉ name → ∀ ax, '/' :: name ≠ mapPath ax := by
    intro name hn ax e
    have hm : mapPath ax = '/' :: (['i', 'n', 'd', 'e', 'x', '_', 'm', 'a', 'p', '/'] ++ ax) := rfl
    rw [hm] at e
    refine hn ?_
    rw [(List.cons.inj e).2]
    simp
  rw [hget]
  refine ⟨?_, ?_, ?_⟩
  · rintro axes (⟨name, hm, he⟩ | ⟨ax, hm, he, rfl⟩)
    · have he : path = '/' :: name := he
      rw [he, ← hd, maps_other _ _ _ (fun x _ => hnomap name (hw.flat _ hm) x.1), spec_own _ _ hw.names _ _ _ hm]
      cases hr : relevant (selArgs kw) axes with
      | true => exact ⟨by simp [dsetSel], 0, by simp [asTuple]⟩
      | false => exact ⟨by simp [dsetSel], axes.length, by simpa [asTuple] using dsetSel_irrelevant _ _ hr⟩
    · have he : path = mapPath ax := he
      rw [he, ← hd]
      cases hs : axisSel (selArgs kw) (some ax) with
      | none =>
        have hno : ∀ s, (ax, s) ∉ selArgs kw := by
          intro s hm
          have := (axisSel_some kw hw.kw (some ax) s).2 ⟨ax, rfl, (mem_selArgs _ _ _).1 hm⟩
          rw [hs] at this
          cases this
        rw [maps_other, spec_other]
        · exact ⟨rfl, 1, by simp [asTuple, dsetSel, hs]⟩
        · exact fun x hx e => hnomap x.1 (hw.flat _ hx) ax e.symm
        · rintro x hx e
          exact hno x.2 (by rw [List.append_cancel_left e]; exact hx)
      | some s =>
        obtain ⟨a, ha, hask⟩ := (axisSel_some kw hw.kw (some ax) s).1 hs
        obtain rfl := Option.some.inj ha
        rw [maps_own _ (fun k v v' a b => asked_unique kw hw.kw k v v' ((mem_selArgs _ _ _).1 a) ((mem_selArgs _ _ _).1 b)) _ _ s
          ((mem_selArgs _ _ _).2 hask)]
        exact ⟨rfl, 0, by simp [asTuple, dsetSel, hs]⟩
  · intro hno
    rw [← hd, maps_other, spec_other]
    · exact fun x hx e => hno x.2 (.inl ⟨x.1, hx, e⟩)
    · exact fun x hx e => hno [some x.1] (.inr ⟨x.1, hax x.1 x.2 ((mem_selArgs _ _ _).1 hx), e, rfl⟩)
  · intro hno s
    rw [← hd, maps_other _ _ _ (fun x _ => hno x.1)]
    have : ∀ (spec : List (Str × List (Option Str))) (f : Str → Option Selv), f path ≠ some (.bare s) →
        spec.foldl (fun d x => if relevant (selArgs kw) x.2 then dput d ('/' :: x.1) (.tuple (dsetSel (selArgs kw) x.2)) else d) f path
          ≠ some (.bare s) := by
      intro spec
      induction spec with
      | nil => exact fun f hf => hf
      | cons x spec ih =>
        intro f hf
        rw [List.foldl_cons]
        apply ih
        split
        · unfold dput
          split
          · simp
          · exact hf
        · exact hf
    exact this _ _ (by simp)

/-! ### Reading -/

theorem picks_full (n : Nat) (ps : List Nat) : Picks n (.slc {}) ps ↔ ps = List.range n := by
  constructor
  · intro h
    cases h
    exact Dist.positions_all n
  · rintro rfl
    have h : Picks n (.slc {}) (Slice.Spec.positions n none none 1) :=
      .slc {} (by decide) (by simp [Slice.Spec.ascFrom, Slice.Spec.ascTo])
    rwa [Dist.positions_all] at h

theorem picks_unique (n : Nat) (s : FileSel) (ps ps' : List Nat) (h : Picks n s ps) (h' : Picks n s ps') : ps = ps' := by
  have := (selPos_picks n s ps h).symm.trans (selPos_picks n s ps' h')
  exact Except.ok.inj this

theorem countP_le_one (es : List FileSel)
    (h : ∀ (k k' : Nat) l l', es[k]? = some (.list l) → es[k']? = some (.list l') → k = k') :
    es.countP FileSel.isList ≤ 1 := by
  induction es with
  | nil => simp
  | cons e es ih =>
    rw [List.countP_cons]
    have ih := ih (fun k k' l l' a b => by have := h (k + 1) (k' + 1) l l' (by simpa) (by simpa); omega)
    cases e with
    | slc s => simpa [FileSel.isList] using ih
    | list l =>
      have : es.countP FileSel.isList = 0 := by
        rw [List.countP_eq_zero]
        intro x hx
        cases x with
        | slc s => simp [FileSel.isList]
        | list l' =>
          obtain ⟨k, hk⟩ := List.getElem?_of_mem hx
          have := h 0 (k + 1) l l' rfl (by simpa)
          omega
      rw [this]
      simp [FileSel.isList]

theorem expandSel_of (n : Nat) (sel : Option (List FileSel)) (es : List FileSel) (h : Covering n sel es) :
    expandSel sel n = es := by
  obtain ⟨hlen, m, hes⟩ := h
  unfold expandSel
  cases sel with
  | none =>
    simp only [Option.getD_none, List.nil_append] at hes
    rw [hes, List.length_replicate] at hlen
    rw [hes, hlen]
  | some l =>
    simp only [Option.getD_some] at hes
    rw [hes, List.length_append, List.length_replicate] at hlen
    simp only
    rw [hes, ← hlen, Nat.add_sub_cancel_left]

theorem selected_unique (G : NArr α) (pss : List (List Nat)) (R R' : NArr α) (h : Selected G pss R) (h' : Selected G pss R') :
    R'.shape = R.shape ∧ ∀ i, InShape i R.shape → R'.val i = R.val i := by
  refine ⟨by rw [h.shape, h'.shape], fun i hi => ?_⟩
  have hi1 := hi
  rw [h.shape] at hi1
  have hi2 := hi1
  rw [← h'.shape] at hi2
  have hc := coords_spec pss i hi1
  rw [h.elems i _ hi hc, h'.elems i _ hi2 hc]

theorem selected_all (G : NArr α) (pss : List (List Nat)) (h : pss = G.shape.map List.range) : Selected G pss G := by
  subst h
  refine ⟨by simp [Function.comp_def], fun i i' hi hf => ?_⟩
  have : i = i' := by
    generalize G.shape = s at *
    clear G
    induction hi generalizing i' with
    | nil =>
      cases hf
      rfl
    | cons h1 h2 ih =>
      rw [List.map_cons, List.zip_cons_cons] at hf
      cases hf with
      | cons a b =>
        simp only at a
        rw [List.getElem?_range h1] at a
        rw [← Option.some.inj a, ih _ b]
  rw [this]

theorem readTuple_ok (fmt : Format) (G : NArr α) (l : List FileSel) (es : List FileSel)
    (hes : Covering G.shape.length (some l) es) (pss : List (List Nat)) (hps : PicksAll G.shape es pss)
    (h1 : es.countP FileSel.isList ≤ 1) (h2 : fmt = .zarr → .list [] ∉ es) :
    readTuple fmt G l = .ok (takePos G pss) := by
  have hl : ¬ G.shape.length < l.length := by
    obtain ⟨hlen, m, e⟩ := hes
    rw [e, List.length_append] at hlen
    simp only [Option.getD_some] at hlen
    omega
  have hP : PosAll G.shape es pss := ⟨hps.1, hps.2.1, fun k n s ps a b c => selPos_picks n s ps (hps.2.2 k n s ps a b c)⟩
  unfold readTuple
  rw [if_neg hl, expandSel_of _ _ _ hes]
  cases fmt with
  | hdf5 => exact h5Read_ok G es pss hP h1
  | zarr =>
    simp only
    unfold zarrGet
    have : (G.shape.zip es).mapM (fun x => zarrPos x.1 x.2) = .ok pss := by
      rw [← allPos_ok G.shape es pss hP.1 hP.2.1 hP.2.2]
      unfold allPos
      have hmap : ∀ (l : List (Nat × FileSel)), (∀ x ∈ l, zarrPos x.1 x.2 = selPos x.1 x.2) →
          l.mapM (fun x => zarrPos x.1 x.2) = l.mapM (fun x => selPos x.1 x.2) := by
        intro l
        induction l with
        | nil => exact fun _ => rfl
        | cons x l ih =>
          intro h
          rw [List.mapM_cons, List.mapM_cons, h x List.mem_cons_self, ih (fun y hy => h y (List.mem_cons_of_mem _ hy))]
      apply hmap
      rintro ⟨n, s⟩ hx
      obtain ⟨k, hk⟩ := List.getElem?_of_mem hx
      rw [List.getElem?_zip_eq_some] at hk
      have hk3 : k < pss.length := by
        rw [hps.2.1]
        exact (List.getElem?_eq_some_iff.1 hk.1).1
      have hp := hps.2.2 k n s _ hk.1 hk.2 (List.getElem?_eq_getElem hk3)
      cases s with
      | slc s => rfl
      | list l =>
        rw [selPos_picks _ _ _ hp]
        generalize pss[k] = ps at hp
        cases hp with
        | list l' hinc hlt =>
          unfold zarrPos
          simp only
          rw [if_neg, if_pos]
          · rw [List.map_map]
            congr 1
            refine (List.map_congr_left (g := id) ?_).trans (List.map_id _)
            intro x _
            simp only [Function.comp, id]
            rw [if_neg (by omega)]
            rfl
          · rw [List.all_eq_true]
            intro y hy
            obtain ⟨x, hx, rfl⟩ := List.mem_map.1 hy
            have := hlt x hx
            rw [decide_eq_true_iff]
            omega
          · intro e
            rw [e] at hk
            exact h2 rfl (List.mem_of_getElem? hk.2)
    rw [this]
    simp only
    rw [if_pos h1]

theorem readCommon_ok (fmt : Format) (G : NArr α) (hG : G.shape ≠ []) (sv : Option Selv) (es : List FileSel)
    (hes : Covering G.shape.length (asTuple sv) es) (pss : List (List Nat)) (hps : PicksAll G.shape es pss)
    (h1 : es.countP FileSel.isList ≤ 1) (h2 : fmt = .zarr → .list [] ∉ es) :
    ∃ A, readCommon fmt G sv = .ok A ∧ Selected G pss A := by
  match sv with
  | none =>
    refine ⟨G, if_neg hG, selected_all G pss ?_⟩
    obtain ⟨hlen, m, e⟩ := hes
    apply List.ext_getElem?
    intro k
    by_cases hk : k < G.shape.length
    · have hk2 : k < pss.length := by rw [hps.2.1]; exact hk
      have hk3 : k < es.length := by omega
      have := hps.2.2 k _ _ _ (List.getElem?_eq_getElem hk) (List.getElem?_eq_getElem hk3) (List.getElem?_eq_getElem hk2)
      have he : es[k] = .slc {} := by
        have hm : ∀ x ∈ es, x = .slc {} := by
          intro x hx
          rw [e] at hx
          simp only [asTuple, Option.getD_none, List.nil_append] at hx
          exact (List.mem_replicate.1 hx).2
        exact hm _ (List.getElem_mem hk3)
      rw [he, picks_full] at this
      rw [List.getElem?_eq_getElem hk2, this, List.getElem?_map, List.getElem?_eq_getElem hk]
      rfl
    · rw [List.getElem?_eq_none (by rw [hps.2.1]; omega), List.getElem?_eq_none (by rw [List.length_map]; omega)]
  | some (.tuple l) => exact ⟨_, readTuple_ok fmt G l es hes pss hps h1 h2, takePos_selected _ _⟩
  | some (.bare s) => exact ⟨_, readTuple_ok fmt G [s] es hes pss hps h1 h2, takePos_selected _ _⟩

end Verif.Load
