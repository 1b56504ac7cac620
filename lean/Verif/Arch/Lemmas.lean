import Verif.Arch.Spec
import Verif.Store.Props
import Verif.Load.SelectLemmas

/-!
# Lemmas about saving and reading trees
-/
namespace Verif.Arch

open Verif.Dist (NArr MArr Comm IsBlock)
open Verif.Store (Err Dset File Fs Opts Env Act Target look Same Stored)
open Verif.Reshape (InShape)
open Verif.Load (Format Io PyErr Transferable)

variable {α : Type}

/-- The dataset that is created for an entry. -/
def made (S : Strings α) (junk : List Nat → α) : Entry α → Option (Dset α)
  | .grp _ => none
  | .com arr dt o _ =>
    if S.uni dt then some ⟨⟨arr.shape, fun i => S.elem (arr.val i)⟩, S.dtype dt, o.chunks, o.comp, o.opts⟩
    else some ⟨arr, dt, o.chunks, o.comp, o.opts⟩
  | .dis blk _ dt o _ => some ⟨⟨(blk 0).gshape, junk⟩, dt, o.chunks, o.comp, o.opts⟩

theorem made_com (S : Strings α) (junk : List Nat → α) (arr : NArr α) (dt : Nat) (o : Opts) (a : Attrs) : made S junk (.com arr dt o a) =
    if S.uni dt then some ⟨⟨arr.shape, fun i => S.elem (arr.val i)⟩, S.dtype dt, o.chunks, o.comp, o.opts⟩
    else some ⟨arr, dt, o.chunks, o.comp, o.opts⟩ := rfl

/-- The first step accepts the entry. -/
def Fine (S : Strings α) (convert skip : Bool) : Entry α → Prop
  | .grp _ => True
  | .com arr dt _ _ => arr.shape ≠ [] ∧ (S.uni dt = true → convert = true)
  | .dis _ _ dt _ _ => skip = true ∧ S.uni dt = false

theorem look_put (fs : Fs α) (f : String) (F : File α) (p : String) (x : Dset α) (h : fs f = some F) (f' p' : String) :
    look (fs.put f (F.put p x)) f' p' = if f' = f ∧ p' = p then some x else look fs f' p' := by
  unfold look Fs.put File.put
  by_cases hf : f' = f
  · subst hf
    simp [h]
  · simp [hf]

theorem putDset_look (d : Disk α) (f p : String) (x : Dset α) (h : d.fs f ≠ none) (f' p' : String) :
    look (d.putDset f p x).fs f' p' = if f' = f ∧ p' = p then some x else look d.fs f' p' := by
  obtain ⟨F, hF⟩ := Option.ne_none_iff_exists'.1 h
  unfold Disk.putDset
  rw [hF]
  exact look_put d.fs f F p x hF f' p'

theorem copyOne_ok (S : Strings α) (convert skip hints : Bool) (junk : List Nat → α) (f : String) (d : Disk α) (p : String) (e : Entry α)
    (hF : d.fs f ≠ none) (ha : d.at' f p = none) (hl : look d.fs f p = none) (hfine : Fine S convert skip e) :
    ∃ d', copyOne S convert skip hints junk f d (p, e) = .ok d' ∧ d'.fs f ≠ none ∧
      d'.at' f p = some (if hints then applyHints p e e.attrs else e.attrs) ∧ look d'.fs f p = made S junk e ∧
      (∀ q, q ≠ p → d'.at' f q = d.at' f q ∧ look d'.fs f q = look d.fs f q) ∧ OnlyFile f d d' := by
  unfold copyOne
  simp only [ha, Option.isSome_none, Bool.false_eq_true, and_false, if_false]
  have hput : ∀ x : Dset α, let d' := (d.putDset f p x).putAttrs f p (if hints then applyHints p e e.attrs else e.attrs)
      d'.fs f ≠ none ∧ d'.at' f p = some (if hints then applyHints p e e.attrs else e.attrs) ∧ look d'.fs f p = some x ∧
      (∀ q, q ≠ p → d'.at' f q = d.at' f q ∧ look d'.fs f q = look d.fs f q) ∧ OnlyFile f d d' := by
    intro x
    refine ⟨by simp [Disk.putAttrs, Disk.putDset, Fs.put], by simp [Disk.putAttrs], ?_, fun q hq => ⟨?_, ?_⟩, fun f' hf' => ⟨?_, fun q => ?_⟩⟩
    · exact (putDset_look d f p x hF f p).trans (by simp)
    · simp [Disk.putAttrs, Disk.putDset, hq]
    · exact (putDset_look d f p x hF f q).trans (by simp [hq])
    · simp [Disk.putAttrs, Disk.putDset, Fs.put, hf']
    · simp [Disk.putAttrs, Disk.putDset, hf']
  cases e with
  | grp a =>
    refine ⟨_, rfl, hF, by simp [Disk.putAttrs, Entry.attrs], hl, fun q hq => ⟨by simp [Disk.putAttrs, hq], rfl⟩, fun f' hf' => ⟨rfl, fun q => by simp [Disk.putAttrs, hf']⟩⟩
  | com arr dt o a =>
    obtain ⟨h1, h2⟩ := hfine
    simp only
    rw [if_neg h1, made_com]
    cases hu : S.uni dt with
    | true =>
      simp only [if_true, h2 hu]
      exact ⟨_, rfl, hput ⟨⟨arr.shape, fun i => S.elem (arr.val i)⟩, S.dtype dt, o.chunks, o.comp, o.opts⟩⟩
    | false =>
      simp only [Bool.false_eq_true, if_false]
      exact ⟨_, rfl, hput ⟨arr, dt, o.chunks, o.comp, o.opts⟩⟩
  | dis blk mov dt o a =>
    obtain ⟨h1, h2⟩ := hfine
    simp only [h1, h2, Bool.true_eq_false, Bool.false_eq_true, if_false]
    exact ⟨_, rfl, hput _⟩

theorem copyAll_ok (S : Strings α) (convert skip hints : Bool) (junk : List Nat → α) (f : String) (t : List (String × Entry α)) :
    ∀ (d : Disk α), d.fs f ≠ none → (t.map Prod.fst).Nodup → (∀ p e, (p, e) ∈ t → d.at' f p = none ∧ look d.fs f p = none ∧ Fine S convert skip e) →
    ∃ d', copyAll S convert skip hints junk f t d = (d', none) ∧ d'.fs f ≠ none ∧
      (∀ p e, (p, e) ∈ t → d'.at' f p = some (if hints then applyHints p e e.attrs else e.attrs) ∧ look d'.fs f p = made S junk e) ∧
      (∀ q, q ∉ t.map Prod.fst → d'.at' f q = d.at' f q ∧ look d'.fs f q = look d.fs f q) ∧ OnlyFile f d d' := by
  induction t with
  | nil => intro d hF _ _; exact ⟨d, rfl, hF, by simp, fun _ _ => ⟨rfl, rfl⟩, fun _ _ => ⟨rfl, fun _ => rfl⟩⟩
  | cons x t ih =>
    obtain ⟨p, e⟩ := x
    intro d hF hnd hfine
    obtain ⟨ha, hl, hf⟩ := hfine p e (by simp)
    obtain ⟨d1, c1, c2, c3, c4, c5, c6⟩ := copyOne_ok S convert skip hints junk f d p e hF ha hl hf
    rw [List.map_cons, List.nodup_cons] at hnd
    have hne : ∀ q e', (q, e') ∈ t → q ≠ p := by
      rintro q e' hq rfl
      exact hnd.1 (List.mem_map.2 ⟨_, hq, rfl⟩)
    obtain ⟨d2, g1, g2, g3, g4, g5⟩ := ih d1 c2 hnd.2 (fun q e' hq => by
      obtain ⟨h1, h2, h3⟩ := hfine q e' (by simp [hq])
      obtain ⟨k1, k2⟩ := c5 q (hne q e' hq)
      exact ⟨k1.trans h1, k2.trans h2, h3⟩)
    refine ⟨d2, ?_, g2, ?_, ?_, ?_⟩
    · rw [copyAll, c1]
      exact g1
    · intro q e' hq
      rcases List.mem_cons.1 hq with h | h
      · cases h
        obtain ⟨k1, k2⟩ := g4 p hnd.1
        exact ⟨k1.trans c3, k2.trans c4⟩
      · exact g3 q e' h
    · intro q hq
      rw [List.map_cons, List.mem_cons, not_or] at hq
      obtain ⟨k1, k2⟩ := g4 q hq.2
      obtain ⟨m1, m2⟩ := c5 q hq.1
      exact ⟨k1.trans m1, k2.trans m2⟩
    · intro f' hf'
      obtain ⟨k1, k2⟩ := g5 f' hf'
      obtain ⟨m1, m2⟩ := c6 f' hf'
      exact ⟨k1.trans m1, fun q => (k2 q).trans (m2 q)⟩

/-- One distributed dataset is written into the one that is there. -/
theorem write_one (C : Ctx α) (hp : 0 < C.env.p) (hq : 0 < C.env.q) (hord : ∀ l, (C.order l).Perm l) (hs : 0 < C.size) (convert : Bool) (w : Whole α)
    (f p : String) (blk mov : Nat → MArr α) (dt : Nat) (o : Opts) (a : Attrs) (h : Savable C convert w (.dis blk mov dt o a)) (fs : Fs α) (hF : fs f ≠ none)
    (hl : look fs f p = some ⟨⟨(blk 0).gshape, C.junk⟩, dt, o.chunks, o.comp, o.opts⟩) :
    ∃ fs', Store.toFile C.env C.zero C.junk C.order fs (target C.fmt f) false p dt o none C.fmt blk mov C.size = (fs', none) ∧ fs' f ≠ none ∧
      (∃ D, look fs' f p = some ⟨D, dt, o.chunks, o.comp, o.opts⟩ ∧ Same D w.arr) ∧
      (∀ q, q ≠ p → look fs' f q = look fs f q) ∧ ∀ f', f' ≠ f → fs' f' = fs f' := by
  obtain ⟨hu, ident, hblk, hw⟩ := h
  have hg : (blk 0).gshape = w.arr.shape := (hblk 0 hs).gshape
  have hfit : Store.Fits fs f p w.arr.shape dt := by
    intro d hd
    rw [hl] at hd
    cases hd
    exact ⟨hg, rfl⟩
  have main : ∃ fs' o', Store.toFile C.env C.zero C.junk C.order fs (target C.fmt f) false p dt o none C.fmt blk mov C.size = (fs', none) ∧
      Stored f p w.arr dt o' fs fs' := by
    rcases hw with ⟨h1, h2, h3, h4, h5⟩ | ⟨h1, h2, h3⟩ | h1
    · rw [h1]
      obtain ⟨fs', k1, k2⟩ := Store.C76_to_file_partial C.env h2 hp hq C.zero C.junk C.order hord fs (.path f) false p dt o none o (.inl ⟨rfl, rfl⟩) .hdf5 w.arr w.axis C.size
        ident hs blk mov hblk hfit (.inl ⟨rfl, true, ⟨rfl, h3, .inr hF⟩, h4, h5.imp id (fun h => ⟨rfl, h⟩)⟩)
      exact ⟨fs', o, k1, k2⟩
    · rw [h1]
      obtain ⟨fs', k1, k2⟩ := Store.C76_serial_partial C.env h2 C.zero C.junk C.order fs f false p dt o w.arr w.axis C.size ident hs blk mov hblk h3 (.inr hF) hfit
      exact ⟨fs', _, k1, k2⟩
    · rw [h1]
      obtain ⟨fs', k1, k2⟩ := Store.C76_zarr C.env hp hq C.junk C.order hord fs (.handle f true) false p dt o w.arr w.axis C.size ident hs blk hblk (.inr ⟨f, rfl, hF⟩) hfit
      exact ⟨fs', o, k1, k2⟩
  obtain ⟨fs', o', k1, ⟨k2, k3⟩, D, k4, k5, k6, k7⟩ := main
  rw [hl] at k7
  obtain ⟨Da, Dt, Dc, Dm, Do⟩ := D
  simp only [Prod.mk.injEq] at k7 k6
  obtain ⟨rfl, rfl, rfl⟩ := k7
  subst k6
  refine ⟨fs', k1, ?_, ⟨Da, k4, k5⟩, fun q hq => k2 f q (by simp [hq]), k3⟩
  intro e
  simp [look, e] at k4

theorem writeDist_ok (C : Ctx α) (hp : 0 < C.env.p) (hq : 0 < C.env.q) (hord : ∀ l, (C.order l).Perm l) (hs : 0 < C.size) (convert : Bool) (whole : String → Whole α)
    (f : String) (t : List (String × Entry α)) :
    ∀ (fs : Fs α), fs f ≠ none → (t.map Prod.fst).Nodup → (∀ p e, (p, e) ∈ t → Savable C convert (whole p) e ∧ look fs f p = made C.str C.junk e) →
    ∃ fs', writeDist C f t fs = (fs', none) ∧ fs' f ≠ none ∧
      (∀ p blk mov dt o a, (p, Entry.dis blk mov dt o a) ∈ t → ∃ D, look fs' f p = some ⟨D, dt, o.chunks, o.comp, o.opts⟩ ∧ Same D (whole p).arr) ∧
      (∀ q, (∀ blk mov dt o a, (q, Entry.dis blk mov dt o a) ∉ t) → look fs' f q = look fs f q) ∧ ∀ f', f' ≠ f → fs' f' = fs f' := by
  induction t with
  | nil => intro fs hF _ _; exact ⟨fs, rfl, hF, by simp, fun _ _ => rfl, fun _ _ => rfl⟩
  | cons x t ih =>
    obtain ⟨p, e⟩ := x
    intro fs hF hnd hall
    rw [List.map_cons, List.nodup_cons] at hnd
    have hne : ∀ q e', (q, e') ∈ t → q ≠ p := by
      rintro q e' hq rfl
      exact hnd.1 (List.mem_map.2 ⟨_, hq, rfl⟩)
    have skip : (∀ blk mov dt o a, e ≠ .dis blk mov dt o a) → writeDist C f ((p, e) :: t) fs = writeDist C f t fs := by
      intro h
      cases e with
      | grp _ => rfl
      | com _ _ _ _ => rfl
      | dis blk mov dt o a => exact absurd rfl (h blk mov dt o a)
    by_cases hd : ∀ blk mov dt o a, e ≠ .dis blk mov dt o a
    · rw [skip hd]
      obtain ⟨fs', g1, g2, g3, g4, g5⟩ := ih fs hF hnd.2 (fun q e' hq => hall q e' (by simp [hq]))
      refine ⟨fs', g1, g2, ?_, ?_, g5⟩
      · intro q blk mov dt o a hq
        rcases List.mem_cons.1 hq with h | h
        · cases h
          exact absurd rfl (hd _ _ _ _ _)
        · exact g3 q blk mov dt o a h
      · intro q hq
        exact g4 q (fun blk mov dt o a h => hq blk mov dt o a (by simp [h]))
    · push Not at hd
      obtain ⟨blk, mov, dt, o, a, rfl⟩ := hd
      obtain ⟨h1, h2⟩ := hall p _ List.mem_cons_self
      obtain ⟨fs1, c1, c2, ⟨D, c3, c4⟩, c5, c6⟩ := write_one C hp hq hord hs convert (whole p) f p blk mov dt o a h1 fs hF h2
      obtain ⟨fs', g1, g2, g3, g4, g5⟩ := ih fs1 c2 hnd.2 (fun q e' hq => by
        obtain ⟨k1, k2⟩ := hall q e' (by simp [hq])
        exact ⟨k1, (c5 q (hne q e' hq)).trans k2⟩)
      refine ⟨fs', ?_, g2, ?_, ?_, fun f' hf' => (g5 f' hf').trans (c6 f' hf')⟩
      · have hu : ¬ C.str.uni dt = true := by
          rw [h1.1]
          decide
        rw [writeDist, if_neg hu, c1]
        exact g1
      · intro q blk' mov' dt' o' a' hq
        rcases List.mem_cons.1 hq with h | h
        · cases h
          refine ⟨D, (g4 p fun blk' mov' dt' o' a' h => hne p _ h rfl).trans c3, c4⟩
        · exact g3 q blk' mov' dt' o' a' h
      · intro q hq
        have hqp : q ≠ p := by
          rintro rfl
          exact hq blk mov dt o a (by simp)
        exact (g4 q (fun blk' mov' dt' o' a' h => hq blk' mov' dt' o' a' (by simp [h]))).trans (c5 q hqp)

/-- Reading everything. -/
theorem fromFile_whole (fmt : Format) (io : Io) (hp : 0 < io.p) (hq : 0 < io.q) (junk : List Nat → α) (G : NArr α) (a : Nat) (ha : a < G.shape.length) (c : Comm)
    (hc : c.rank < c.size) (htr : fmt = .hdf5 → Transferable io G.shape a c.size) :
    ∃ A, Load.fromFile fmt io junk G none a c = .ok A ∧ IsBlock G a c A := by
  have hmap : (G.shape.map List.range).map List.length = G.shape := by simp [Function.comp_def]
  have hcnt : (List.replicate G.shape.length (Slice.FileSel.slc {})).countP Load.FileSel.isList = 0 := by
    rw [List.countP_eq_zero]
    intro x hx
    rw [List.eq_of_mem_replicate hx]
    simp [Load.FileSel.isList]
  refine Load.C10_nd_read_partial fmt io hp hq junk G none (List.replicate G.shape.length (.slc {})) ⟨by simp, G.shape.length, by simp⟩ (G.shape.map List.range) ⟨by simp, by simp, ?_⟩
    a a ⟨ha, .inl rfl⟩ c hc ?_ G (Load.selected_all G _ rfl)
  · intro k n s ps h1 h2 h3
    rw [List.getElem?_map, h1] at h3
    rw [List.getElem?_replicate] at h2
    split at h2
    · cases h2
      cases h3
      exact (Load.picks_full n _).2 rfl
    · simp at h2
  · cases fmt with
    | hdf5 => exact .inl ⟨rfl, by omega, by rw [hmap]; exact htr rfl⟩
    | zarr =>
      refine .inr ⟨rfl, ?_⟩
      rw [List.any_eq_false]
      intro x hx
      rw [List.eq_of_mem_replicate hx]
      simp [Load.FileSel.isList]

theorem isBlock_same (D G : NArr α) (a : Nat) (c : Comm) (A : MArr α) (hs : Same D G) (h : IsBlock D a c A) : IsBlock G a c A := by
  obtain ⟨h1, h2⟩ := hs
  refine ⟨h1 ▸ h.lt, h.rank, h.comm, h.axis, h1 ▸ h.gshape, h1 ▸ h.shape, h.lshape, h1 ▸ h.loff, fun i hi => ?_⟩
  rw [h.elems i hi, ← h1, h2]
  rw [h.shape] at hi
  exact Dist.inShape_shift hi (Mpi.block_le _ _ h.rank)

theorem kept_set (a : Attrs) (k : String) (v : Attr) (h : k = hintFile ∨ k = hintDset ∨ k = hintAxis) (a' : Attrs) (hk : Kept a a') : Kept a (a'.set k v) := by
  intro q h1 h2 h3
  unfold Attrs.set
  rw [if_neg]
  · exact hk q h1 h2 h3
  · rintro rfl
    rcases h with h | h | h
    · exact h1 h
    · exact h2 h
    · exact h3 h

theorem kept_hints (p : String) (e : Entry α) : Kept e.attrs (applyHints p e e.attrs) := by
  have h0 : Kept e.attrs e.attrs := fun _ _ _ _ => rfl
  unfold applyHints
  split
  · exact kept_set _ _ _ (.inl rfl) _ h0
  · cases e with
    | grp a => exact h0
    | com _ _ _ a => exact kept_set _ _ _ (.inr (.inl rfl)) _ h0
    | dis _ _ _ _ a => exact kept_set _ _ _ (.inr (.inr rfl)) _ (kept_set _ _ _ (.inr (.inl rfl)) _ h0)

/-- What is in the file after a save, for an entry. -/
def InFile (S : Strings α) (w : Whole α) : Entry α → Option (Dset α) → Prop
  | .grp _, x => x = none
  | .com arr dt o a, x => x = made S (fun _ => arr.val []) (.com arr dt o a)
  | .dis _ _ dt o _, x => ∃ D, x = some ⟨D, dt, o.chunks, o.comp, o.opts⟩ ∧ Same D w.arr

theorem text_back (S : Strings α) (convert convert' : Bool) (arr : NArr α) (dt : Nat) (o : Opts) (a : Attrs) (j : List Nat → α) (h : TextBack S convert convert' arr dt) (x : Dset α)
    (hx : made S j (.com arr dt o a) = some x) :
    x.arr.shape = arr.shape ∧ (unconv S convert' x.arr x.dtype).2 = dt ∧ Same (unconv S convert' x.arr x.dtype).1 arr ∧ (⟨x.chunks, x.comp, x.opts⟩ : Opts) = o := by
  rw [made_com] at hx
  rcases h with ⟨h1, h2⟩ | ⟨h1, h2, h3, h4, h5, h6⟩
  · rw [h1] at hx
    cases hx
    have : (convert' && S.byt dt) = false := by rcases h2 with h | h <;> simp [h]
    unfold unconv
    simp [this, Same]
  · rw [h1] at hx
    cases hx
    unfold unconv
    simp only [h3, h4, Bool.and_self, if_true]
    exact ⟨trivial, h5, ⟨rfl, h6⟩, trivial⟩

end Verif.Arch
