import Verif.Arch.Lemmas

/-!
# Properties of saving trees and reading them back (C77)
-/
namespace Verif.Arch

open Verif.Dist (NArr MArr Comm IsBlock)
open Verif.Store (Err Dset File Fs Opts Env Act Target look Same)
open Verif.Reshape (InShape)
open Verif.Load (Format Io PyErr Transferable)

variable {α : Type}

/-- What the file has after a save. -/
theorem saved (C : Ctx α) (hp : 0 < C.env.p) (hq : 0 < C.env.q) (hord : ∀ l, (C.order l).Perm l) (hs : 0 < C.size) (hints convert : Bool) (d : Disk α) (f : String)
    (t : List (String × Entry α)) (hw : WellFormed t) (whole : String → Whole α) (hsav : ∀ p e, (p, e) ∈ t → Savable C convert (whole p) e) :
    ∃ d', toFile C true hints convert d f t = (d', none) ∧ OnlyFile f d d' ∧
      (∀ p e, (p, e) ∈ t → d'.at' f p = some (applyHints p e e.attrs) ∧ InFile C.str (whole p) e (look d'.fs f p)) ∧
      ∀ q, q ∉ t.map Prod.fst → d'.at' f q = none := by
  have hF : (d.fresh f).fs f ≠ none := by simp [Disk.fresh, Fs.put]
  obtain ⟨d1, c1, c2, c3, c4, c5⟩ := copyAll_ok C.str convert true true C.junk f t (d.fresh f) hF hw.1 (fun p e he => by
    refine ⟨by simp [Disk.fresh], by simp [look, Disk.fresh, Fs.put], ?_⟩
    have := hsav p e he
    cases e with
    | grp _ => trivial
    | com _ _ _ _ => exact this
    | dis _ _ _ _ _ => exact ⟨rfl, this.1⟩)
  obtain ⟨fs', g1, g2, g3, g4, g5⟩ := writeDist_ok C hp hq hord hs convert whole f t d1.fs c2 hw.1 (fun p e he => ⟨hsav p e he, (c3 p e he).2⟩)
  have huniq : ∀ p e e', (p, e) ∈ t → (p, e') ∈ t → e = e' := by
    intro p e e' h h'
    have := List.inj_on_of_nodup_map hw.1 h h' rfl
    cases this
    rfl
  refine ⟨⟨fs', d1.at'⟩, ?_, ?_, ?_, ?_⟩
  · unfold toFile saveDist
    rw [if_neg (by simp), c1]
    simp only [g1]
  · intro f' hf'
    obtain ⟨k1, k2⟩ := c5 f' hf'
    exact ⟨(g5 f' hf').trans (k1.trans (by simp [Disk.fresh, Fs.put, hf'])), fun q => (k2 q).trans (by simp [Disk.fresh, hf'])⟩
  · intro p e he
    obtain ⟨k1, k2⟩ := c3 p e he
    refine ⟨by simpa using k1, ?_⟩
    have hnot : (∀ blk mov dt o a, e ≠ .dis blk mov dt o a) → look fs' f p = made C.str C.junk e := by
      intro h
      rw [g4 p (fun blk mov dt o a h' => h blk mov dt o a (huniq p _ _ he h'))]
      exact k2
    cases e with
    | grp a => exact hnot (by simp)
    | com arr dt o a => exact hnot (by simp)
    | dis blk mov dt o a => exact g3 p blk mov dt o a he
  · intro q hq'
    rw [(c4 q hq').1]
    simp [Disk.fresh]

/-- **C77** (distributed). Saving a distributed tree succeeds, and what is then read is the tree. Read in distributed form, by any number of processes: groups are groups;
common datasets are common with the same elements; a distributed dataset is on each process its block of the same array over the same axis. Read in common form, it is the whole
array, and chunks and compression are kept. Types are the same, unicode strings too if both calls convert strings, and so are the attributes, other than those that tell what
is distributed. There is nothing else in the file, and no other file changes. -/
theorem C77_distributed_partial (C : Ctx α) (hp : 0 < C.env.p) (hq : 0 < C.env.q) (hord : ∀ l, (C.order l).Perm l) (hs : 0 < C.size) (hints convert : Bool) (d : Disk α)
    (f : String) (t : List (String × Entry α)) (hw : WellFormed t) (whole : String → Whole α) (hsav : ∀ p e, (p, e) ∈ t → Savable C convert (whole p) e) :
    ∃ d', toFile C true hints convert d f t = (d', none) ∧ OnlyFile f d d' ∧
      ∀ (R : RCtx α) (convert' : Bool), R.fmt = C.fmt → R.str = C.str → 0 < R.io.p → 0 < R.io.q → R.comm.rank < R.comm.size →
        (∀ p e, (p, e) ∈ t → Readable R convert convert' true (whole p) e →
          ∃ g, readAt R true true convert' d' f p = some (.ok g) ∧ Back R.comm (whole p) e g) ∧
        (∀ p e, (p, e) ∈ t → Readable R convert convert' false (whole p) e → ∀ dist hint, dist = false ∨ hint = false →
          ∃ g, readAt R dist hint convert' d' f p = some (.ok g) ∧ BackWhole (whole p) e g) ∧
        ∀ q, q ∉ t.map Prod.fst → ∀ dist hint, readAt R dist hint convert' d' f q = none := by
  obtain ⟨d', s1, s2, s3, s4⟩ := saved C hp hq hord hs hints convert d f t hw whole hsav
  refine ⟨d', s1, s2, fun R convert' hfmt hstr rp rq hr => ⟨?_, ?_, ?_⟩⟩
  · intro p e he hread
    obtain ⟨k1, k2⟩ := s3 p e he
    have hk := kept_hints p e
    unfold readAt
    cases e with
    | grp a =>
      simp only [k1, show (d'.fs f).bind (fun F => F p) = none from k2]
      exact ⟨_, rfl, _, rfl, hk⟩
    | com arr dt o a =>
      have hne : arr.shape ≠ [] := (hsav p _ he).1
      obtain ⟨x, hx⟩ : ∃ x, made C.str (fun _ => arr.val []) (.com arr dt o a) = some x := by
        rw [made_com]
        split <;> exact ⟨_, rfl⟩
      have hlx : (d'.fs f).bind (fun F => F p) = some x := k2.trans hx
      have hroot : p ≠ "/" := by
        rintro rfl
        obtain ⟨a', ha'⟩ := hw.2 _ he
        cases ha'
      have hax : distAxis (applyHints p (Entry.com arr dt o a) (Entry.com arr dt o a).attrs) = none := by
        unfold distAxis applyHints
        simp [hroot, Attrs.set]
      rw [← hstr] at hx
      obtain ⟨t1, t2, t3, -⟩ := text_back R.str convert convert' arr dt o a _ hread x hx
      simp only [k1, hlx, Bool.true_eq_false, or_self, if_false, hax, Load.loadOne, Load.getSel, Load.readCommon]
      rw [if_neg (by rw [t1]; exact hne)]
      exact ⟨_, rfl, _, _, _, by rw [t2], t3, hk⟩
    | dis blk mov dt o a =>
      obtain ⟨D, hD, hsame⟩ := k2
      have hlx : (d'.fs f).bind (fun F => F p) = some ⟨D, dt, o.chunks, o.comp, o.opts⟩ := hD
      obtain ⟨-, ident, hblk, -⟩ := hsav p _ he
      have hb0 := hblk 0 hs
      have hroot : p ≠ "/" := by
        rintro rfl
        obtain ⟨a', ha'⟩ := hw.2 _ he
        cases ha'
      have hax : distAxis (applyHints p (Entry.dis blk mov dt o a) (Entry.dis blk mov dt o a).attrs) = some ((whole p).axis : Int) := by
        unfold distAxis applyHints
        simp [hroot, Attrs.set, hintDset, hintAxis, hb0.axis]
      obtain ⟨A, r1, r2⟩ := fromFile_whole R.fmt R.io rp rq R.junk D (whole p).axis (by rw [hsame.1]; exact hb0.lt) R.comm hr (fun h => by
        rw [hsame.1]
        exact hread h)
      simp only [k1, hlx, Bool.true_eq_false, or_self, if_false, hax, Load.loadOne, Load.getSel, Load.readDist, r1]
      exact ⟨_, rfl, _, _, _, rfl, isBlock_same D _ _ _ A hsame r2, hk⟩
  · intro p e he hread dist hint hdh
    obtain ⟨k1, k2⟩ := s3 p e he
    have hk := kept_hints p e
    unfold readAt
    cases e with
    | grp a =>
      simp only [k1, show (d'.fs f).bind (fun F => F p) = none from k2]
      exact ⟨_, rfl, _, rfl, hk⟩
    | com arr dt o a =>
      have hne : arr.shape ≠ [] := (hsav p _ he).1
      obtain ⟨x, hx⟩ : ∃ x, made C.str (fun _ => arr.val []) (.com arr dt o a) = some x := by
        rw [made_com]
        split <;> exact ⟨_, rfl⟩
      have hlx : (d'.fs f).bind (fun F => F p) = some x := k2.trans hx
      rw [← hstr] at hx
      obtain ⟨t1, t2, t3, t4⟩ := text_back R.str convert convert' arr dt o a _ hread x hx
      simp only [k1, hlx, if_pos hdh, Load.readCommon]
      rw [if_neg (by rw [t1]; exact hne)]
      exact ⟨_, rfl, _, _, by rw [t2, t4], t3, hk⟩
    | dis blk mov dt o a =>
      obtain ⟨D, hD, hsame⟩ := k2
      have hlx : (d'.fs f).bind (fun F => F p) = some ⟨D, dt, o.chunks, o.comp, o.opts⟩ := hD
      obtain ⟨-, ident, hblk, -⟩ := hsav p _ he
      have hlt := (hblk 0 hs).lt
      have hne : D.shape ≠ [] := by
        rw [hsame.1]
        intro h
        rw [h] at hlt
        simp at hlt
      have hun : unconv R.str convert' D dt = (D, dt) := by
        unfold unconv
        rw [if_neg]
        rcases hread with h | h <;> simp [h]
      simp only [k1, hlx, if_pos hdh, Load.readCommon, if_neg hne, hun]
      exact ⟨_, rfl, _, _, rfl, hsame, hk⟩
  · intro q hq' dist hint
    unfold readAt
    rw [s4 q hq']

/-- **C77** (not distributed). Saving a tree without distributed datasets and reading it in common form gives the same tree: the same groups and datasets, elements, types, chunks,
compression, and exactly the same attributes. -/
theorem C77_plain_partial (C : Ctx α) (hints convert : Bool) (d : Disk α) (f : String) (t : List (String × Entry α)) (hw : WellFormed t)
    (hsav : ∀ p e, (p, e) ∈ t → (∃ a, e = .grp a) ∨ ∃ arr dt o a, e = .com arr dt o a ∧ arr.shape ≠ [] ∧ (C.str.uni dt = true → convert = true)) :
    ∃ d', toFile C false hints convert d f t = (d', none) ∧ OnlyFile f d d' ∧
      ∀ (R : RCtx α) (convert' : Bool), R.str = C.str →
        (∀ p a, (p, Entry.grp a) ∈ t → readAt R false true convert' d' f p = some (.ok (.grp a))) ∧
        (∀ p arr dt o a, (p, Entry.com arr dt o a) ∈ t → TextBack C.str convert convert' arr dt →
          ∃ A, readAt R false true convert' d' f p = some (.ok (.ds (.common A) dt o a)) ∧ Same A arr) ∧
        ∀ q, q ∉ t.map Prod.fst → readAt R false true convert' d' f q = none := by
  have hF : (d.fresh f).fs f ≠ none := by simp [Disk.fresh, Fs.put]
  obtain ⟨d1, c1, c2, c3, c4, c5⟩ := copyAll_ok C.str convert false false C.junk f t (d.fresh f) hF hw.1 (fun p e he => by
    refine ⟨by simp [Disk.fresh], by simp [look, Disk.fresh, Fs.put], ?_⟩
    rcases hsav p e he with ⟨a, rfl⟩ | ⟨arr, dt, o, a, rfl, h1, h2⟩
    · trivial
    · exact ⟨h1, h2⟩)
  refine ⟨d1, by unfold toFile; rw [if_pos rfl]; exact c1, ?_, fun R convert' hstr => ⟨?_, ?_, ?_⟩⟩
  · intro f' hf'
    obtain ⟨k1, k2⟩ := c5 f' hf'
    exact ⟨k1.trans (by simp [Disk.fresh, Fs.put, hf']), fun q => (k2 q).trans (by simp [Disk.fresh, hf'])⟩
  · intro p a he
    obtain ⟨k1, k2⟩ := c3 p _ he
    unfold readAt
    simp only [k1, show (d1.fs f).bind (fun F => F p) = none from k2]
    rfl
  · intro p arr dt o a he htext
    obtain ⟨k1, k2⟩ := c3 p _ he
    have hne : arr.shape ≠ [] := by
      rcases hsav p _ he with ⟨a, h⟩ | ⟨arr', dt', o', a', h, h1, h2⟩
      · cases h
      · cases h
        exact h1
    obtain ⟨x, hx⟩ : ∃ x, made C.str C.junk (.com arr dt o a) = some x := by
      rw [made_com]
      split <;> exact ⟨_, rfl⟩
    obtain ⟨t1, t2, t3, t4⟩ := text_back C.str convert convert' arr dt o a _ htext x hx
    have hlx : (d1.fs f).bind (fun F => F p) = some x := k2.trans hx
    unfold readAt
    simp only [k1, hlx, true_or, if_true, Load.readCommon, hstr]
    rw [if_neg (by rw [t1]; exact hne)]
    simp only [t2, t4]
    exact ⟨_, rfl, t3⟩
  · intro q hq'
    unfold readAt
    rw [(c4 q hq').1]
    simp [Disk.fresh]

/-- The first entry that is refused ends the save. -/
theorem copyAll_stops (S : Strings α) (convert skip hints : Bool) (junk : List Nat → α) (f : String) (t : List (String × Entry α)) (p : String) (e : Entry α) (t' : List (String × Entry α))
    (d : Disk α) (hF : d.fs f ≠ none) (hnd : ((t ++ (p, e) :: t').map Prod.fst).Nodup)
    (hfine : ∀ q e', (q, e') ∈ t ++ [(p, e)] → d.at' f q = none ∧ look d.fs f q = none) (hf : ∀ q e', (q, e') ∈ t → Fine S convert skip e') (err : Err)
    (herr : ∀ d, d.at' f p = none → copyOne S convert skip hints junk f d (p, e) = .error err) :
    (copyAll S convert skip hints junk f (t ++ (p, e) :: t') d).2 = some err := by
  induction t generalizing d with
  | nil =>
    rw [List.nil_append, copyAll, herr d (hfine p e (by simp)).1]
  | cons x t ih =>
    obtain ⟨q, e'⟩ := x
    obtain ⟨h1, h2⟩ := hfine q e' (by simp)
    obtain ⟨d1, c1, c2, -, -, c5, -⟩ := copyOne_ok S convert skip hints junk f d q e' hF h1 h2 (hf q e' (by simp))
    rw [List.cons_append, copyAll, c1]
    rw [List.cons_append, List.map_cons, List.nodup_cons] at hnd
    refine ih d1 c2 hnd.2 (fun r e2 hr => ?_) (fun r e2 hr => hf r e2 (by simp [hr]))
    obtain ⟨k1, k2⟩ := hfine r e2 (by rw [List.cons_append]; exact List.mem_cons_of_mem _ hr)
    have hrq : r ≠ q := by
      rintro rfl
      apply hnd.1
      rw [List.map_append, List.mem_append]
      rcases List.mem_append.1 hr with h | h
      · exact .inl (List.mem_map.2 ⟨_, h, rfl⟩)
      · right
        rw [List.mem_singleton] at h
        cases h
        simp
    obtain ⟨m1, m2⟩ := c5 r hrq
    exact ⟨m1.trans k1, m2.trans k2⟩

/-- **C77** (what is refused). The entries before are as above. Unicode strings without conversion are a `TypeError`, in common and in distributed datasets; a dataset without axes is an
`IndexError`; and a distributed dataset in a tree that is not distributed is a `ValueError`. -/
theorem C77_refused (C : Ctx α) (distributed hints convert : Bool) (d : Disk α) (f : String) (t : List (String × Entry α)) (p : String) (e : Entry α) (t' : List (String × Entry α))
    (hw : WellFormed (t ++ (p, e) :: t')) (whole : String → Whole α)
    (hsav : ∀ q e', (q, e') ∈ t → Savable C convert (whole q) e' ∧ (distributed = false → ∀ blk mov dt o a, e' ≠ .dis blk mov dt o a)) :
    (∀ arr dt o a, e = .com arr dt o a → arr.shape ≠ [] → C.str.uni dt = true → convert = false →
      (toFile C distributed hints convert d f (t ++ (p, e) :: t')).2 = some (.py .typeError)) ∧
    (∀ arr dt o a, e = .com arr dt o a → arr.shape = [] → (toFile C distributed hints convert d f (t ++ (p, e) :: t')).2 = some (.py .indexError)) ∧
    (∀ blk mov dt o a, e = .dis blk mov dt o a → distributed = false → (toFile C distributed hints convert d f (t ++ (p, e) :: t')).2 = some (.py .valueError)) ∧
    ∀ blk mov dt o a, e = .dis blk mov dt o a → distributed = true → C.str.uni dt = true → (toFile C distributed hints convert d f (t ++ (p, e) :: t')).2 = some (.py .typeError) := by
  have hF : (d.fresh f).fs f ≠ none := by simp [Disk.fresh, Fs.put]
  have hempty : ∀ q, (d.fresh f).at' f q = none ∧ look (d.fresh f).fs f q = none := fun q => ⟨by simp [Disk.fresh], by simp [look, Disk.fresh, Fs.put]⟩
  have hfine : ∀ q e', (q, e') ∈ t → Fine C.str convert distributed e' := by
    intro q e' he
    obtain ⟨h1, h2⟩ := hsav q e' he
    cases e' with
    | grp _ => trivial
    | com _ _ _ _ => exact h1
    | dis blk mov dt o a =>
      refine ⟨?_, h1.1⟩
      cases distributed with
      | true => rfl
      | false => exact absurd rfl (h2 rfl blk mov dt o a)
  have main : ∀ err, (∀ d : Disk α, d.at' f p = none → copyOne C.str convert distributed distributed C.junk f d (p, e) = .error err) →
      (toFile C distributed hints convert d f (t ++ (p, e) :: t')).2 = some err := by
    intro err herr
    have := copyAll_stops C.str convert distributed distributed C.junk f t p e t' (d.fresh f) hF hw.1 (fun q _ _ => hempty q) hfine err herr
    unfold toFile saveDist
    cases distributed with
    | false => simpa using this
    | true =>
      rw [if_neg (by simp)]
      generalize copyAll C.str convert true true C.junk f (t ++ (p, e) :: t') (d.fresh f) = r at this
      obtain ⟨r1, r2⟩ := r
      simp only at this
      subst this
      rfl
  refine ⟨?_, ?_, ?_, ?_⟩
  · rintro arr dt o a rfl h1 h2 h3
    apply main
    intro d hd
    simp [copyOne, hd, h1, h2, h3]
  · rintro arr dt o a rfl h1
    apply main
    intro d hd
    simp [copyOne, hd, h1]
  · rintro blk mov dt o a rfl h1
    apply main
    intro d hd
    simp [copyOne, hd, h1]
  · rintro blk mov dt o a rfl h1 h2
    apply main
    intro d hd
    simp [copyOne, hd, h1, h2]

/-- **C77** (failures). If a distributed dataset cannot be written, whatever else there is, then saving does not end as if it had been. -/
theorem C77_failure_reported (C : Ctx α) (hints convert : Bool) (d : Disk α) (f : String) (t : List (String × Entry α)) (p : String) (blk mov : Nat → MArr α) (dt : Nat) (o : Opts) (a : Attrs)
    (hin : (p, .dis blk mov dt o a) ∈ t)
    (hfail : ∀ fs, (Store.toFile C.env C.zero C.junk C.order fs (match C.fmt with | .hdf5 => .path f | .zarr => .handle f true) false p dt o none C.fmt blk mov C.size).2 ≠ none) :
    (toFile C true hints convert d f t).2 ≠ none := by
  have hw : ∀ (t : List (String × Entry α)) fs, (p, .dis blk mov dt o a) ∈ t → (writeDist C f t fs).2 ≠ none := by
    intro t
    induction t with
    | nil => intro fs h; cases h
    | cons x l ih =>
      intro fs h
      obtain ⟨q, e⟩ := x
      cases e with
      | grp b =>
        rw [writeDist]
        · exact ih fs (by simpa using h)
        · intros
          simp_all
      | com b d' o' a' =>
        rw [writeDist]
        · exact ih fs (by simpa using h)
        · intros
          simp_all
      | dis b m d' o' a' =>
        rw [writeDist]
        split
        · simp
        · split
          · simp
          · rename_i fs' hr
            rcases List.mem_cons.1 h with h | h
            · simp only [Prod.mk.injEq, Entry.dis.injEq] at h
              obtain ⟨rfl, rfl, rfl, rfl, rfl, rfl⟩ := h
              exact absurd (congrArg Prod.snd hr) (hfail fs)
            · exact ih fs' h
  unfold toFile saveDist
  rw [if_neg (by simp)]
  split
  · simp
  · exact hw t _ hin

/-- **C77** (no axis recorded). A dataset that is marked as distributed without telling the axis is read as one that is distributed over the first. -/
theorem C77_no_axis (R : RCtx α) (convert : Bool) (d : Disk α) (f p : String) (a : Attrs) (A : Proto.Data α) (dt : Nat) (o : Opts)
    (hm : a "__memh5_distributed_dset" = some (.flag true)) (hn : a "__memh5_distributed_axis" = none) :
    readAt R true true convert (d.putAttrs f p a) f p = some (.ok (.ds A dt o a)) ↔
      readAt R true true convert (d.putAttrs f p (a.set "__memh5_distributed_axis" (.num 0))) f p = some (.ok (.ds A dt o (a.set "__memh5_distributed_axis" (.num 0)))) := by
  have h1 : distAxis a = some 0 := by simp [distAxis, hintDset, hintAxis, hm, hn]
  have h2 : distAxis (a.set "__memh5_distributed_axis" (.num 0)) = some 0 := by simp [distAxis, hintDset, hintAxis, hm, Attrs.set]
  unfold readAt Disk.putAttrs
  simp only [and_self, if_true]
  cases (d.fs f).bind (fun F => F p) with
  | none => simp
  | some x =>
    simp only [Bool.true_eq_false, or_self, if_false, h1, h2]
    split <;> simp

/-- **C77** (classes). An object that has no class recorded is read back as an object of its own class, if that can be imported and is a class of such objects; for other classes there
is a `RuntimeError`. A file without a class is read as the class `from_file` is called on. -/
theorem C77_class_partial (imp : String → Import) (own path name : String) :
    (imp path = .cls name true → resolve imp own (stamp path none) = .ok name) ∧
    (imp path = .cls name false → resolve imp own (stamp path none) = .error .runtimeError) ∧
    resolve imp own none = .ok own := by
  refine ⟨fun h => ?_, fun h => ?_, rfl⟩ <;> simp [resolve, stamp, h]

example : resolve (fun p => if p = "pkg.Map" then .cls "Map" true else .importError) "MemDiskGroup" (stamp "pkg.Map" none) = .ok "Map" := by decide

/-! ### A case -/

/-- Type 1 is numbers, 2 unicode strings, 3 byte strings; strings are numbers here too, and bytes those from 1000. -/
def text : Strings Nat := ⟨fun t => t == 2, fun t => t == 3, fun _ => 3, fun x => x + 1000, fun _ => 2, fun x => x - 1000⟩

def noAttrs : Attrs := fun _ => none

/-- A group with an attribute, a distributed array, and strings. -/
def sky : List (String × Entry Nat) :=
  [("/", .grp (noAttrs.set "tag" (.user 5))),
   ("/maps", .grp noAttrs),
   ("/maps/vis", .dis (Store.blocks Store.box 1 2) (Store.blocks Store.box 0 2) 1 ⟨some [1, 5, 2], some 4, none⟩ (noAttrs.set "unit" (.user 7))),
   ("/names", .com ⟨[3], fun i => i.getD 0 0⟩ 2 ⟨none, none, none⟩ noAttrs)]

def skyWhole : String → Whole Nat := fun _ => ⟨Store.box, 1⟩

def ctx (mpi : Bool) (fmt : Format) : Ctx Nat := ⟨Store.env mpi, text, 0, fun _ => 9, List.reverse, fmt, 2⟩

def rctx (fmt : Format) (size rank : Nat) : RCtx Nat := ⟨fmt, text, ⟨fmt == .hdf5, 8, 80, 1⟩, fun _ => 9, ⟨0, size, rank⟩⟩

def empty : Disk Nat := ⟨fun _ => none, fun _ _ => none⟩

theorem sky_wf : WellFormed sky := by
  refine ⟨by decide, ?_⟩
  intro e he
  simp only [sky, List.mem_cons, Prod.mk.injEq, List.not_mem_nil, or_false] at he
  rcases he with ⟨-, h⟩ | ⟨h, -⟩ | ⟨h, -⟩ | ⟨h, -⟩
  · exact ⟨_, h⟩
  · exact absurd h (by decide)
  · exact absurd h (by decide)
  · exact absurd h (by decide)

theorem sky_savable (mpi : Bool) (fmt : Format) : ∀ p e, (p, e) ∈ sky → Savable (ctx mpi fmt) true (skyWhole p) e := by
  intro p e he
  simp only [sky, List.mem_cons, Prod.mk.injEq, List.not_mem_nil, or_false] at he
  rcases he with ⟨-, rfl⟩ | ⟨-, rfl⟩ | ⟨-, rfl⟩ | ⟨-, rfl⟩
  · trivial
  · trivial
  · refine ⟨rfl, 0, fun r hr => Store.blocks_ok Store.box 1 2 (by decide) r hr, ?_⟩
    cases fmt with
    | zarr => exact .inr (.inr rfl)
    | hdf5 =>
      cases mpi with
      | true =>
        refine .inl ⟨rfl, rfl, rfl, ?_, .inr ?_⟩
        · change Transferable ⟨true, 8, 80, 1⟩ Store.box.shape 1 2
          refine .inr ⟨⟨0, by decide, by decide⟩, fun m h1 h2 => .inr ⟨0, 3, by decide, rfl, ?_⟩⟩
          apply h2
          intro r hr
          have : r = 0 ∨ r = 1 := by
            have : r < 2 := hr
            omega
          rcases this with rfl | rfl <;> decide
        · intro n h
          have : n = 5 := by simpa [skyWhole, Store.box] using h.symm
          subst this
          change 2 ≤ 5
          decide
      | false => exact .inr (.inl ⟨rfl, rfl, fun r hr => Store.blocks_ok Store.box 0 2 (by decide) r hr⟩)
  · exact ⟨by simp, fun _ => rfl⟩

/-- What can be seen of an entry that is read: whether it is distributed, the shape here, the type, chunks, some elements, and an attribute. -/
structure View where
  dist : Option Bool
  shape : List Nat
  dtype : Nat
  chunks : Option (List Nat)
  elems : List Nat
  attr : Option Attr
  deriving DecidableEq

def view (g : Option (Except PyErr (Got Nat))) (is : List (List Nat)) (k : String) : Option View :=
  match g with
  | some (.ok (.grp a)) => some ⟨none, [], 0, none, [], a k⟩
  | some (.ok (.ds (.common A) dt o a)) => some ⟨some false, A.shape, dt, o.chunks, is.map A.val, a k⟩
  | some (.ok (.ds (.dist A) dt o a)) => some ⟨some true, A.arr.shape, dt, o.chunks, is.map A.arr.val, a k⟩
  | _ => none

/- Saved by two processes, and read on the second of three, and as a whole. -/
example : view (readAt (rctx .hdf5 3 1) true true true (toFile (ctx true .hdf5) true true true empty "f.h5" sky).1 "f.h5" "/maps/vis") [[2, 0, 1], [2, 1, 1]] "unit" =
    some ⟨some true, [3, 2, 2], 1, none, [221, 231], some (.user 7)⟩ := by decide +kernel
example : view (readAt (rctx .zarr 3 1) true true true (toFile (ctx true .zarr) true true true empty "f.h5" sky).1 "f.h5" "/maps/vis") [[2, 0, 1], [2, 1, 1]] "unit" =
    some ⟨some true, [3, 2, 2], 1, none, [221, 231], some (.user 7)⟩ := by decide +kernel
example : view (readAt (rctx .hdf5 3 1) false true true (toFile (ctx false .hdf5) true true true empty "f.h5" sky).1 "f.h5" "/maps/vis") [[2, 0, 1], [2, 4, 1]] "unit" =
    some ⟨some false, [3, 5, 2], 1, some [1, 5, 2], [201, 241], some (.user 7)⟩ := by decide +kernel
example : view (readAt (rctx .hdf5 3 1) true true true (toFile (ctx true .hdf5) true true true empty "f.h5" sky).1 "f.h5" "/names") [[0], [2]] "x" =
    some ⟨some false, [3], 2, none, [0, 2], none⟩ := by decide +kernel

/- One of two processes alone. -/
example : (toFile { ctx true .hdf5 with size := 1 } true true true empty "f.h5" sky).2 ≠ none :=
  C77_failure_reported _ true true empty "f.h5" sky "/maps/vis" _ _ _ _ _ (by simp only [sky, List.mem_cons]; exact .inr (.inr (.inl rfl)))
    (fun fs => by simp [Store.toFile, ctx, Store.toHdf5, Store.openH5, Store.env])

/- Marked by hand, without the axis. -/
example : view (readAt (rctx .hdf5 3 1) true true true
      ((toFile (ctx true .hdf5) true true true empty "f.h5" sky).1.putAttrs "f.h5" "/maps/vis" (noAttrs.set "__memh5_distributed_dset" (.flag true))) "f.h5" "/maps/vis")
    [[0, 0, 1], [0, 1, 1]] "unit" = some ⟨some true, [1, 5, 2], 1, none, [101, 111], none⟩ := by decide +kernel

/-! ### Where it is not so -/

/-- **C77** violated: `hints=False` makes no difference when a distributed tree is saved: the file is marked as distributed. -/
theorem C77_hints_violated (C : Ctx α) (hp : 0 < C.env.p) (hq : 0 < C.env.q) (hord : ∀ l, (C.order l).Perm l) (hs : 0 < C.size) (convert : Bool) (d : Disk α) (f : String)
    (t : List (String × Entry α)) (hw : WellFormed t) (whole : String → Whole α) (hsav : ∀ p e, (p, e) ∈ t → Savable C convert (whole p) e) (a : Attrs) (hroot : ("/", .grp a) ∈ t) :
    ∃ d' a', toFile C true false convert d f t = (d', none) ∧ d'.at' f "/" = some a' ∧ a' "__memh5_distributed_file" = some (.flag true) := by
  obtain ⟨d', s1, -, s3, -⟩ := saved C hp hq hord hs false convert d f t hw whole hsav
  exact ⟨d', _, s1, (s3 "/" _ hroot).1, by simp [applyHints, Attrs.set, hintFile]⟩

/-- **C77** violated: the marks come back as attributes of the tree that is read, which had none. -/
theorem C77_marks_violated :
    (view (readAt (rctx .hdf5 1 0) false true true (toFile (ctx true .hdf5) true true true empty "f.h5" sky).1 "f.h5" "/names") [] "__memh5_distributed_dset").map View.attr =
      some (some (.flag false)) ∧
    ∀ e, ("/names", e) ∈ sky → e.attrs "__memh5_distributed_dset" = none := by
  refine ⟨by decide +kernel, ?_⟩
  intro e he
  simp only [sky, List.mem_cons, Prod.mk.injEq, List.not_mem_nil, or_false] at he
  rcases he with ⟨h, -⟩ | ⟨h, -⟩ | ⟨h, -⟩ | ⟨-, rfl⟩
  · exact absurd h (by decide)
  · exact absurd h (by decide)
  · exact absurd h (by decide)
  · rfl

/-- **C77** violated: chunks and compression are lost when a file is read in distributed form, whatever they are. -/
theorem C77_chunks_violated (R : RCtx α) (convert : Bool) (d : Disk α) (f p : String) (A : Proto.Data α) (dt : Nat) (o : Opts) (a : Attrs)
    (h : readAt R true true convert d f p = some (.ok (.ds A dt o a))) : o = ⟨none, none, none⟩ := by
  unfold readAt at h
  split at h
  · cases h
  · split at h
    · cases h
    · simp only [Bool.true_eq_false, or_self, if_false] at h
      split at h <;> cases h
      · rfl
      · rfl

/-- **C77** violated: the strings in a distributed dataset are not converted, although that is asked for: saving ends with a `TypeError`. -/
theorem C77_strings_violated (C : Ctx α) (hints : Bool) (d : Disk α) (f p : String) (hp : p ≠ "/") (blk mov : Nat → MArr α) (dt : Nat) (o : Opts) (a : Attrs) (hu : C.str.uni dt = true) :
    (toFile C true hints true d f [("/", .grp a), (p, .dis blk mov dt o a)]).2 = some (.py .typeError) := by
  refine (C77_refused C true hints true d f [("/", .grp a)] p (.dis blk mov dt o a) [] ⟨?_, ?_⟩ (fun _ => ⟨⟨[], fun _ => C.zero⟩, 0⟩) ?_).2.2.2 blk mov dt o a rfl rfl hu
  · simpa using Ne.symm hp
  · intro e he
    simp only [List.singleton_append, List.mem_cons, Prod.mk.injEq, List.not_mem_nil, or_false] at he
    rcases he with ⟨-, h⟩ | ⟨h, -⟩
    · exact ⟨_, h⟩
    · exact absurd h.symm hp
  · intro q e' he
    simp only [List.mem_singleton, Prod.mk.injEq] at he
    obtain ⟨-, rfl⟩ := he
    exact ⟨trivial, fun h => by cases h⟩

/-- **C77** violated: an object whose data are on disk cannot be saved to HDF5. Without a mode the file is opened for reading; with mode `"w"` the first dataset is an
`AttributeError`. -/
theorem C77_on_disk_violated (exist : Bool) (dsets : Nat) (h : 0 < dsets) : (∃ e, saveOnDisk exist none dsets = .error e) ∧ saveOnDisk exist (some .w) dsets = .error .attributeError := by
  refine ⟨?_, by simp [saveOnDisk, h]⟩
  cases exist <;> exact ⟨_, rfl⟩

/-- **C77** violated: if the class cannot be imported there is a warning, which announces that the class is not used, and then an `UnboundLocalError`. -/
theorem C77_class_violated (imp : String → Import) (own path : String) (h : imp path = .importError ∨ imp path = .keyError) :
    resolve imp own (some path) = .error .unboundLocal := by
  rcases h with h | h <;> simp [resolve, h]

/-- **C77** violated: an object with a class recorded from before, such as one read as another class, is saved as an object of that class. -/
theorem C77_stamp_violated (imp : String → Import) (own : String) (p q : String) (n m : String) (hp : imp p = .cls n true) (_hq : imp q = .cls m true) (hne : n ≠ m) :
    ∃ r, resolve imp own (stamp q (some p)) = .ok r ∧ r ≠ m := ⟨n, by simp [resolve, stamp, hp], hne⟩

end Verif.Arch
