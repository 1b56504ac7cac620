import Verif.Files.Lemmas
import Verif.Save.Props

/-!
# C70: lists of files
-/
namespace Verif.Files

/-- **C70** (lists and patterns). A list of names, patterns and lists is accepted if and only if there is a file for every
name, and stands for those files in order, the files of each pattern being sorted. -/
theorem C70_list_partial (W : World) (hW : Tame W) (n : Nat) (a : Arg) (hn : Fits n a) (r : List Str) :
    listOrGlob W n a = .ok r ↔ Expands W a r := by
  induction n generalizing a r with
  | zero => cases hn
  | succ n ih =>
    cases hn with
    | str s k =>
      rw [listOrGlob]
      by_cases hm : magic s = true
      · rw [if_pos hm]
        have hw := (magic_iff s).1 hm
        rw [listOrGlob, collect_iff _ (fun (a : Arg) r => ∃ s, a = .str s ∧ Present W s ∧ r = [s]) _ ?_, paths_iff]
        · constructor
          · rintro ⟨h1, rfl⟩
            exact .pattern _ _ hw (sortStrs_sorted _) (sortStrs_perm _) h1
          · intro h
            cases h with
            | path _ h1 _ => exact absurd hw h1
            | pattern _ _ _ h1 h2 h3 =>
              have e : r = sortStrs (W.glob s) :=
                sorted_unique _ _ h1 (sortStrs_sorted _) (h2.trans (sortStrs_perm _).symm)
              exact ⟨by rw [← e]; exact h3, e⟩
        · intro b hb t
          obtain ⟨f, hf, rfl⟩ := List.mem_map.1 hb
          have hnw : magic f ≠ true := fun h => hW s f ((sortStrs_perm _).mem_iff.1 hf) ((magic_iff f).1 h)
          rw [listOrGlob, if_neg hnw, checkPath_iff]
          constructor
          · rintro ⟨h1, h2⟩
            exact ⟨f, rfl, h1, h2⟩
          · rintro ⟨g, e, h1, h2⟩
            obtain rfl := Arg.str.inj e
            exact ⟨h1, h2⟩
      · rw [if_neg hm, checkPath_iff]
        have hw : ¬ Wild s := fun h => hm ((magic_iff s).2 h)
        constructor
        · rintro ⟨h, rfl⟩
          exact .path _ hw h
        · intro h
          cases h with
          | path _ _ h2 => exact ⟨h2, rfl⟩
          | pattern _ _ h1 _ _ _ => exact absurd h1 hw
    | other =>
      rw [listOrGlob]
      constructor
      · intro h; cases h
      · intro h; cases h
    | list l _ hl =>
      rw [listOrGlob, collect_iff _ (Expands W) l fun b hb t => ih b (hl b hb) t]
      constructor
      · rintro ⟨rs, h, rfl⟩
        exact .list l rs h
      · intro h
        cases h with
        | list _ rs h => exact ⟨rs, h, rfl⟩

/-- **C70** (order). The result does not depend on the order in which the file system lists its files, so that it is the
same for all processes. -/
theorem C70_order (W V : World) (hg : ∀ p, (W.glob p).Perm (V.glob p)) (hf : W.isfile = V.isfile) (hd : W.isdir = V.isdir)
    (n : Nat) (a : Arg) : listOrGlob W n a = listOrGlob V n a := by
  induction n generalizing a with
  | zero => rfl
  | succ n ih =>
    have hfun : listOrGlob W n = listOrGlob V n := funext ih
    cases a with
    | str s =>
      rw [listOrGlob, listOrGlob, ih]
      have hs : sortStrs (W.glob s) = sortStrs (V.glob s) :=
        sorted_unique _ _ (sortStrs_sorted _) (sortStrs_sorted _)
          ((sortStrs_perm _).trans ((hg s).trans (sortStrs_perm _).symm))
      have hc : checkPath W s = checkPath V s := by
        unfold checkPath
        rw [hf, hd]
      rw [hs, hc]
    | list l => rw [listOrGlob, listOrGlob, hfun]
    | other => rfl

theorem innerLists_iff (W : World) (hW : Tame W) (n : Nat) (m : List Arg) (hn : ∀ a ∈ m, Fits n a) (r : List Arg) :
    innerLists W n m = .ok r ↔ ∃ fs, List.Forall₂ (Expands W) m fs ∧ r = fs.map fun f => .list (f.map .str) := by
  induction m generalizing r with
  | nil =>
    rw [innerLists]
    constructor
    · intro h
      exact ⟨[], .nil, (Except.ok.inj h).symm⟩
    · rintro ⟨fs, h, rfl⟩
      cases h
      rfl
  | cons a l ih =>
    rw [innerLists]
    have ha := C70_list_partial W hW n a (hn a (by simp))
    have ih := ih fun b hb => hn b (by simp [hb])
    constructor
    · intro h
      cases h1 : listOrGlob W n a with
      | error e => rw [h1] at h; cases h
      | ok x =>
        rw [h1] at h
        simp only at h
        cases h2 : innerLists W n l with
        | error e => rw [h2] at h; cases h
        | ok y =>
          rw [h2] at h
          obtain ⟨fs, hf, rfl⟩ := (ih y).1 h2
          exact ⟨x :: fs, .cons ((ha x).1 h1) hf, (Except.ok.inj h).symm⟩
    · rintro ⟨fs, h, rfl⟩
      cases h with
      | cons h1 h2 =>
        rw [(ha _).2 h1]
        simp only
        rw [(ih _).2 ⟨_, h2, rfl⟩]
        rfl

/-- **C70** (lists of lists). A list of names, patterns and lists is accepted if and only if every name without a star is a
file and every entry of a list stands for files; a name or pattern gives the files it matches, a list gives a list of files
for each of its entries. -/
theorem C70_filelists_partial (W : World) (hW : Tame W) (n : Nat) (l : List Arg) (hn : ∀ a ∈ l, FitsIn n a) (r : List Arg) :
    listOfFilelists W n l = .ok r ↔ ∃ ps, List.Forall₂ (Part W) l ps ∧ r = ps.flatten := by
  induction l generalizing r with
  | nil =>
    rw [listOfFilelists]
    constructor
    · intro h
      exact ⟨[], .nil, (Except.ok.inj h).symm⟩
    · rintro ⟨ps, h, rfl⟩
      cases h
      rfl
  | cons a l ih =>
    have ih := ih fun b hb => hn b (by simp [hb])
    cases a with
    | str s =>
      rw [listOfFilelists]
      have hc : ¬ (!s.contains '*' && !W.isfile s) = true ↔ ('*' ∈ s ∨ W.isfile s = true) := by
        cases hf : W.isfile s <;> by_cases hs : '*' ∈ s <;> simp [hs]
      constructor
      · intro h
        split at h
        · cases h
        · next hb =>
          cases h2 : listOfFilelists W n l with
          | error e => rw [h2] at h; cases h
          | ok y =>
            rw [h2] at h
            obtain ⟨ps, hp, rfl⟩ := (ih y).1 h2
            exact ⟨_ :: ps, .cons (.str s (hc.1 hb)) hp, (Except.ok.inj h).symm⟩
      · rintro ⟨ps, h, rfl⟩
        cases h with
        | cons h1 h2 =>
          cases h1 with
          | str _ hb =>
            rw [if_neg (hc.2 hb), (ih _).2 ⟨_, h2, rfl⟩]
            rfl
    | list m =>
      rw [listOfFilelists]
      have hm := innerLists_iff W hW n m (hn (.list m) (by simp))
      constructor
      · intro h
        cases h1 : innerLists W n m with
        | error e => rw [h1] at h; cases h
        | ok x =>
          rw [h1] at h
          simp only at h
          cases h2 : listOfFilelists W n l with
          | error e => rw [h2] at h; cases h
          | ok y =>
            rw [h2] at h
            obtain ⟨ps, hp, rfl⟩ := (ih y).1 h2
            obtain ⟨fs, hf, rfl⟩ := (hm x).1 h1
            exact ⟨_ :: ps, .cons (.list m fs hf) hp, (Except.ok.inj h).symm⟩
      · rintro ⟨ps, h, rfl⟩
        cases h with
        | cons h1 h2 =>
          cases h1 with
          | list _ fs hf =>
            rw [(hm _).2 ⟨fs, hf, rfl⟩]
            simp only
            rw [(ih _).2 ⟨_, h2, rfl⟩]
            rfl
    | other =>
      rw [listOfFilelists]
      constructor
      · intro h; cases h
      · rintro ⟨ps, h, rfl⟩
        cases h with
        | cons h1 h2 => cases h1

/-- **C70** (groups). A list of groups is accepted if and only if every group has files; its files are those of its
entries in order, its tag the one given or `group_` with its number. -/
theorem C70_groups_partial (W : World) (showNat : Nat → Str) (gs : List (List Str × Option Str)) (k : Nat)
    (r : List (List Str × Str))
    (h : fileGroups W showNat k (gs.map fun g => some (some g.1, g.2)) = .ok r) :
    r.length = gs.length ∧ ∀ (i : Nat) g, gs[i]? = some g →
      (∀ f ∈ g.1, '*' ∈ f ∨ W.isfile f = true) ∧ g.1.flatMap W.glob ≠ [] ∧
      r[i]? = some (g.1.flatMap W.glob, g.2.getD ("group_".toList ++ showNat (k + i))) := by
  induction gs generalizing k r with
  | nil =>
    obtain rfl := Except.ok.inj h
    exact ⟨rfl, by simp⟩
  | cons g gs ih =>
    rw [List.map_cons, fileGroups] at h
    cases h1 : oneGroup W showNat k (some (some g.1, g.2)) with
    | error e => rw [h1] at h; cases h
    | ok x =>
      rw [h1] at h
      simp only at h
      cases h2 : fileGroups W showNat (k + 1) (gs.map fun g => some (some g.1, g.2)) with
      | error e => rw [h2] at h; cases h
      | ok xs =>
        rw [h2] at h
        obtain rfl := Except.ok.inj h
        obtain ⟨q1, q2⟩ := ih (k + 1) xs h2
        refine ⟨by simp [q1], ?_⟩
        have hfiles : ∀ (l r : List Str), groupFiles W l = .ok r → (∀ f ∈ l, '*' ∈ f ∨ W.isfile f = true) ∧ r = l.flatMap W.glob := by
          intro l
          induction l with
          | nil =>
            intro r hr
            obtain rfl := Except.ok.inj hr
            exact ⟨by simp, rfl⟩
          | cons f l ihl =>
            intro r hr
            rw [groupFiles] at hr
            split at hr
            · cases hr
            · rename_i hc
              cases h3 : groupFiles W l with
              | error e => rw [h3] at hr; cases hr
              | ok r2 =>
                rw [h3] at hr
                obtain rfl := Except.ok.inj hr
                obtain ⟨w1, w2⟩ := ihl r2 h3
                refine ⟨?_, by rw [w2]; rfl⟩
                intro f' hf'
                rcases List.mem_cons.1 hf' with rfl | hf'
                · simp only [Bool.and_eq_true, Bool.not_eq_true', List.contains_eq_mem, decide_eq_false_iff_not] at hc
                  by_cases hs : '*' ∈ f'
                  · exact .inl hs
                  · right
                    cases hb : W.isfile f' with
                    | true => rfl
                    | false => exact absurd ⟨hs, hb⟩ hc
                · exact w1 f' hf'
        intro i g' hi
        cases i with
        | succ i =>
          obtain ⟨w1, w2, w3⟩ := q2 i g' (by simpa using hi)
          exact ⟨w1, w2, by rw [show k + (i + 1) = k + 1 + i by omega]; simpa using w3⟩
        | zero =>
          obtain rfl : g = g' := by simpa using hi
          unfold oneGroup at h1
          simp only at h1
          cases h3 : groupFiles W g.1 with
          | error e => rw [h3] at h1; cases h1
          | ok fs =>
            rw [h3] at h1
            obtain ⟨w1, w2⟩ := hfiles _ _ h3
            cases fs with
            | nil => cases h1
            | cons f fs =>
              obtain rfl := Except.ok.inj h1
              refine ⟨w1, by rw [← w2]; simp, by rw [← w2]; rfl⟩

/-! ### Loading -/

section
variable {δ : Type}

/-- The task that loads files. -/
def loader (load : Str → Except Save.PyErr (Save.Cont δ)) (files : List Str) : Save.User δ Nat := ⟨loadNext load files, none⟩

/-- What should come out for a file: what is in it, with the name of the file as its tag if it has none. -/
def Loaded (load : Str → Except Save.PyErr (Save.Cont δ)) (f : Str) (y : Save.Cont δ) : Prop :=
  ∃ x, load f = .ok x ∧ y.data = x.data ∧ y.bad = x.bad ∧
    (∀ a, a ≠ "tag".toList → y.attrs a = x.attrs a) ∧
    ∀ v, y.attrs "tag".toList = some v ↔
      x.attrs "tag".toList = some v ∨ (x.attrs "tag".toList = none ∧ v = .str (stemOf (basename f)))

theorem addTag_loaded (load : Str → Except Save.PyErr (Save.Cont δ)) (f : Str) (x : Save.Cont δ) (h : load f = .ok x) :
    Loaded load f (addTag f x) := by
  refine ⟨x, h, ?_⟩
  unfold addTag
  cases ht : x.attrs "tag".toList with
  | some w =>
    refine ⟨rfl, rfl, fun _ _ => rfl, fun v => ?_⟩
    rw [ht]
    constructor
    · exact .inl
    · rintro (e | ⟨e, -⟩)
      · exact e
      · cases e
  | none =>
    refine ⟨rfl, rfl, fun a ha => if_neg ha, fun v => ?_⟩
    show (if "tag".toList = "tag".toList then some (Save.AVal.str (stemOf (basename f))) else x.attrs "tag".toList) = some v ↔ _
    rw [if_pos rfl]
    constructor
    · intro e
      exact .inr ⟨rfl, (Option.some.inj e).symm⟩
    · rintro (e | ⟨-, e⟩)
      · cases e
      · rw [e]

/-- **C70** (loading). The task that loads files gives the contents of each file once, in the order of the list, tagged,
and then stops. (Here for files without NaNs, which would be dropped; see C69 for saving and tags.) -/
theorem C70_load_partial (load : Str → Except Save.PyErr (Save.Cont δ)) (E : Save.Env) (files : List Str) (xs : List (Save.Cont δ))
    (h : List.Forall₂ (fun f x => load f = .ok x ∧ x.bad = false) files xs) :
    ∃ ys, List.Forall₂ (Loaded load) files ys ∧
      Save.Produces E (loader load files).process 0 (List.replicate files.length []) ys files.length ∧
      (loader load files).process files.length [] = .error .stop := by
  refine ⟨(files.zip xs).map fun p => addTag p.1 p.2, ?_, ?_, ?_⟩
  · induction h with
    | nil => exact .nil
    | cons h1 h2 ih => exact .cons (addTag_loaded load _ _ h1.1) ih
  · have key : ∀ (fs pre : List Str) (xs : List (Save.Cont δ)), files = pre ++ fs →
        List.Forall₂ (fun f x => load f = .ok x ∧ x.bad = false) fs xs →
        Save.Produces E (loader load files).process pre.length (List.replicate fs.length [])
          ((fs.zip xs).map fun p => addTag p.1 p.2) files.length := by
      intro fs
      induction fs with
      | nil =>
        intro pre xs hp hf
        cases hf
        rw [hp, List.append_nil]
        exact .nil _
      | cons f fs ih =>
        intro pre xs hp hf
        cases hf with
        | @cons _ x _ xs h1 h2 =>
          rw [List.length_cons, List.replicate_succ, List.zip_cons_cons, List.map_cons]
          have hget : files[pre.length]? = some f := by
            rw [hp, List.getElem?_append_right (Nat.le_refl _), Nat.sub_self]
            rfl
          refine .cons _ (pre.length + 1) _ _ _ _ _ ?_ ?_ ?_
          · show loadNext load files pre.length [] = _
            unfold loadNext
            rw [hget]
            simp only [h1.1]
          · unfold addTag
            split <;> exact h1.2
          · have := ih (pre ++ [f]) xs (by rw [hp]; simp) h2
            rw [List.length_append] at this
            exact this
    exact key files [] xs rfl h
  · show loadNext load files files.length [] = _
    unfold loadNext
    rw [List.getElem?_eq_none (Nat.le_refl _)]

end

/-! ### A case -/

/-- A directory `d` with files, one of which is called `x[1].h5`. -/
def disk : World where
  glob p := if p = "d/*.h5".toList then ["d/b.h5".toList, "d/a.h5".toList]
    else if p = "d/[ab].h5".toList then ["d/a.h5".toList, "d/b.h5".toList]
    else if p = "e/*.h5".toList then ["e/x[1].h5".toList]
    else if p = "d/a.h5".toList then [p]
    else []
  isfile p := p = "d/a.h5".toList || p = "d/b.h5".toList || p = "e/x[1].h5".toList
  isdir p := p = "d/c.zarr".toList

example : listOrGlob disk 10 (.list [.str "d/c.zarr".toList, .list [.str "d/*.h5".toList]]) =
    .ok ["d/c.zarr".toList, "d/a.h5".toList, "d/b.h5".toList] := by rfl

/-- A file system without wildcards in names. -/
def calm : World := { disk with glob := fun p => if p = "d/*.h5".toList then ["d/b.h5".toList, "d/a.h5".toList] else [] }

theorem calm_tame : Tame calm := by
  intro p f hf
  unfold calm at hf
  simp only at hf
  split at hf
  · rcases List.mem_cons.1 hf with rfl | hf
    · unfold Wild; decide
    · rcases List.mem_cons.1 hf with rfl | hf
      · unfold Wild; decide
      · cases hf
  · cases hf

example : ∃ ps, List.Forall₂ (Part calm) [.str "d/*.h5".toList, .list [.str "d/a.h5".toList]] ps ∧
    [.str "d/b.h5".toList, .str "d/a.h5".toList, .list [.str "d/a.h5".toList]] = ps.flatten :=
  (C70_filelists_partial calm calm_tame 3 _ (by
    intro a ha
    rcases List.mem_cons.1 ha with rfl | ha
    · trivial
    · obtain rfl := List.mem_singleton.1 ha
      intro b hb
      obtain rfl := List.mem_singleton.1 hb
      exact .str _ 0) _).1 rfl

example : Expands calm (.list [.str "d/c.zarr".toList, .list [.str "d/*.h5".toList]])
    ["d/c.zarr".toList, "d/a.h5".toList, "d/b.h5".toList] :=
  (C70_list_partial calm (by
    intro p f hf
    unfold calm at hf
    simp only at hf
    split at hf
    · rcases List.mem_cons.1 hf with rfl | hf
      · unfold Wild; decide
      · rcases List.mem_cons.1 hf with rfl | hf
        · unfold Wild; decide
        · cases hf
    · cases hf) 5 _ (.list _ _ (by
      intro a ha
      rcases List.mem_cons.1 ha with rfl | ha
      · exact .str _ 1
      · rcases List.mem_cons.1 ha with rfl | ha
        · exact .list _ _ (by
            intro b hb
            obtain rfl := List.mem_singleton.1 hb
            exact .str _ 0)
        · cases ha)) _).1 rfl

example : fileGroups disk (fun n => List.replicate n '1') 0 [some (some ["d/*.h5".toList], none)] =
    .ok [(["d/b.h5".toList, "d/a.h5".toList], "group_".toList)] := by rfl

example : stemOf (basename "d/x.y.h5".toList) = "x.y".toList ∧ stemOf (basename "d/.h5".toList) = ".h5".toList := by decide

/-! ### Where the property fails -/

/-- C70: a file whose name has a bracket in it is lost: the names found by a pattern are taken to be patterns. -/
theorem C70_bracket_violated : listOrGlob disk 10 (.str "e/*.h5".toList) = .ok [] ∧
    disk.glob "e/*.h5".toList = ["e/x[1].h5".toList] := by exact ⟨rfl, by decide⟩

/-- C70: if a pattern finds a file whose name is a pattern that finds itself, the search does not end: Python fails at its
limit, however large that is. -/
theorem C70_loop_violated (W : World) (p f : Str) (hp : magic p = true) (hg : W.glob p = [f]) (hm : magic f = true)
    (hf : W.glob f = [f]) (n : Nat) : listOrGlob W n (.str p) = .error .recursionError := by
  have key : ∀ n (q : Str), magic q = true → W.glob q = [f] → listOrGlob W n (.str q) = .error .recursionError := by
    intro n
    induction n using Nat.strongRecOn with
    | ind n ih =>
      intro q hq hgq
      match n with
      | 0 => rfl
      | 1 => rw [listOrGlob, if_pos hq, listOrGlob]
      | n + 2 =>
        have h := ih n (by omega) f hm hf
        rw [listOrGlob, if_pos hq, listOrGlob, hgq]
        have hs : sortStrs [f] = [f] := rfl
        rw [hs, List.map_cons, List.map_nil, collect, h]
  exact key n p hp hg

example : magic "x?".toList = true := by decide

/-- C70: the example in the documentation, a pattern with brackets in a group, is rejected although the files are there. -/
theorem C70_group_pattern_violated :
    fileGroups disk (fun n => List.replicate n '1') 0 [some (some ["d/[ab].h5".toList], none)] = .error .configError ∧
    disk.glob "d/[ab].h5".toList = ["d/a.h5".toList, "d/b.h5".toList] := by exact ⟨rfl, by decide⟩

/-- C70: the second group is `group_1`, not `group_2` as documented, and may have the tag of another group. -/
theorem C70_group_tag_violated :
    fileGroups disk (fun n => List.replicate n '1') 0
      [some (some ["d/a.h5".toList], some "group_1".toList), some (some ["d/a.h5".toList], none)] =
      .ok [(["d/a.h5".toList], "group_1".toList), (["d/a.h5".toList], "group_1".toList)] := by rfl

/-- C70: a zarr store cannot be in a group. -/
theorem C70_group_zarr_violated :
    fileGroups disk (fun n => List.replicate n '1') 0 [some (some ["d/c.zarr".toList], none)] = .error .configError := by rfl

/-- C70: a list within a list of lists is not flattened. -/
theorem C70_flat_violated :
    listOfFilelists disk 10 [.list [.str "d/*.h5".toList]] =
      .ok [.list [.str "d/a.h5".toList, .str "d/b.h5".toList]] := by rfl

/-- C70: a pattern in a list of lists gives its files in the order of the file system, which need not be the same for all
processes. -/
theorem C70_filelists_order_violated (W V : World) (p f g : Str) (hp : '*' ∈ p) (hW : W.glob p = [f, g]) (hV : V.glob p = [g, f]) (hne : f ≠ g)
    (n : Nat) : listOfFilelists W n [.str p] = .ok [.str f, .str g] ∧ listOfFilelists V n [.str p] = .ok [.str g, .str f] ∧
      [Arg.str f, .str g] ≠ [.str g, .str f] := by
  refine ⟨?_, ?_, ?_⟩
  · simp [listOfFilelists, hp, hW]
  · simp [listOfFilelists, hp, hV]
  · intro h
    simp only [List.cons.injEq, Arg.str.injEq] at h
    exact hne h.1

example : '*' ∈ "d/*.h5".toList ∧ disk.glob "d/*.h5".toList = ["d/b.h5".toList, "d/a.h5".toList] := by decide

/-- C70: in a list of lists a pattern without a star and a zarr store are refused although they are there, and a file whose
name has a bracket is left out without an error. -/
theorem C70_filelists_names_violated :
    (listOfFilelists disk 10 [.str "d/[ab].h5".toList] = .error .configError ∧
      disk.glob "d/[ab].h5".toList = ["d/a.h5".toList, "d/b.h5".toList]) ∧
    (listOfFilelists disk 10 [.str "d/c.zarr".toList] = .error .configError ∧ disk.isdir "d/c.zarr".toList = true) ∧
    (listOfFilelists disk 10 [.str "e/x[1].h5".toList] = .ok [] ∧ disk.isfile "e/x[1].h5".toList = true) := by
  refine ⟨⟨rfl, by decide⟩, ⟨rfl, by decide⟩, rfl, by decide⟩

end Verif.Files
