import Verif.Loading.Model
import Mathlib.Tactic.Common
import Mathlib.Logic.Function.Iterate

/-!
# C87: files that tasks choose
-/
namespace Verif.Loading

open Verif.Save (Str AVal Piece Env Dict Cont)

variable {δ : Type}

/-! ### Collections -/

theorem get_nil (k : Key) : get ([] : List (Key × Cont δ)) k = none := rfl

theorem get_cons (k' : Key) (c : Cont δ) (l : List (Key × Cont δ)) (k : Key) : get ((k', c) :: l) k = if k' = k then some c else get l k := by
  unfold get
  rw [List.find?_cons]
  by_cases h : k' = k <;> simp [h]

theorem get_put (coll : List (Key × Cont δ)) (k : Key) (c : Cont δ) (j : Key) : get (put coll k c) j = if j = k then some c else get coll j := by
  induction coll with
  | nil =>
    rw [put, get_cons, get_nil]
    by_cases h : k = j
    · simp [h]
    · rw [if_neg h, if_neg (fun e => h e.symm)]
  | cons e rest ih =>
    obtain ⟨k', c'⟩ := e
    rw [put]
    split
    · rename_i h
      subst h
      rw [get_cons, get_cons]
      by_cases h : k' = j
      · simp [h]
      · rw [if_neg h, if_neg (fun e => h e.symm), if_neg h]
    · rename_i h
      rw [get_cons, get_cons, ih]
      by_cases h1 : k' = j
      · rw [if_pos h1, if_neg (fun e => h (h1.trans e)), if_pos h1]
      · rw [if_neg h1, if_neg h1]

theorem put_length_of_get (coll : List (Key × Cont δ)) (k : Key) (c : Cont δ) : (put coll k c).length = if (get coll k).isSome then coll.length else coll.length + 1 := by
  induction coll with
  | nil => simp [put, get]
  | cons e rest ih =>
    obtain ⟨k', c'⟩ := e
    rw [put, get_cons]
    by_cases h : k' = k
    · simp [h]
    · simp only [if_neg h, List.length_cons, ih]
      split <;> rfl

/-- The files can be read, with these contents. -/
def Reads (read : Str → Option (Cont δ)) (files : List Str) (xs : List (Cont δ)) : Prop := files.map read = xs.map some

theorem setup_positions (E : Env) (read : Str → Option (Cont δ)) (files : List Str) (xs : List (Cont δ)) (h : Reads read files xs) (n : Nat) (coll : List (Key × Cont δ))
    (hlen : coll.length = n) (hnew : ∀ i, n ≤ i → get coll (.pos i) = none) :
    ∃ coll', setupFrom E read none n coll files = .ok coll' ∧ coll'.length = n + xs.length ∧ ∀ i, get coll' (.pos i) = if i < n then get coll (.pos i) else xs[i - n]? := by
  induction files generalizing xs n coll with
  | nil =>
    have : xs = [] := by
      have : xs.length = 0 := by simpa using (congrArg List.length h).symm
      exact List.length_eq_zero_iff.1 this
    subst this
    refine ⟨coll, rfl, by simpa using hlen, fun i => ?_⟩
    split
    · rfl
    · rw [hnew i (by omega)]
      rfl
  | cons f fs ih =>
    cases xs with
    | nil => simp [Reads] at h
    | cons x xs =>
      obtain ⟨h1, h2⟩ : read f = some x ∧ Reads read fs xs := by simpa [Reads] using h
      have hp := get_put coll (.pos n) x
      obtain ⟨coll', hs, hl, hg⟩ := ih xs h2 (n + 1) (put coll (.pos n) x) (by
          rw [put_length_of_get, hnew n (Nat.le_refl n), hlen]
          rfl) (by
          intro i hi
          rw [hp, if_neg (by simp; omega), hnew i (by omega)])
      refine ⟨coll', ?_, by rw [hl, List.length_cons]; omega, fun i => ?_⟩
      · rw [setupFrom, loadFile, h1]
        exact hs
      · rw [hg, hp]
        by_cases hi : i < n
        · rw [if_pos hi, if_pos (by omega), if_neg (by simp; omega)]
        · rw [if_neg hi]
          by_cases he : i = n
          · subst he
            simp
          · rw [if_neg (by omega)]
            obtain ⟨j, rfl⟩ : ∃ j, i = n + 1 + j := ⟨i - (n + 1), by omega⟩
            rw [show n + 1 + j - (n + 1) = j by omega, show n + 1 + j - n = j + 1 by omega, List.getElem?_cons_succ]

theorem serve_positions (E : Env) (n : Nat) (hn : 0 < n) (ins : List (Dict × (Cont δ → Cont δ))) (count : Nat) (coll : List (Key × Cont δ)) (hlen : coll.length = n)
    (st : Nat → Cont δ) (hst : ∀ i < n, get coll (.pos i) = some (st i)) :
    ∃ outs, serve E none count coll ins = .ok outs ∧ outs.length = ins.length ∧ ∀ i < ins.length,
      outs[i]? = some (some ((((ins.take i).zipIdx.filter fun p => (count + p.2) % n = (count + i) % n).map (·.1.2)).foldl (fun c f => f c) (st ((count + i) % n)))) := by
  induction ins generalizing count coll st with
  | nil => exact ⟨[], rfl, rfl, by simp⟩
  | cons e ins ih =>
    obtain ⟨d, f⟩ := e
    have hm := Nat.mod_lt count hn
    have hk : selectKey E none coll count d = .ok (some (.pos (count % n))) := by
      unfold selectKey
      simp only
      rw [if_neg (by omega), hlen]
    have hg := hst _ hm
    obtain ⟨outs, h1, h2, h3⟩ := ih (count + 1) (put coll (.pos (count % n)) (f (st (count % n)))) (by
        rw [put_length_of_get, hg, hlen]
        rfl) (fun i => if i = count % n then f (st (count % n)) else st i) (by
        intro i hi
        rw [get_put]
        by_cases h : i = count % n
        · simp [h]
        · rw [if_neg (by simpa using h), if_neg h, hst i hi])
    refine ⟨some (st (count % n)) :: outs, ?_, by simp [h2], ?_⟩
    · rw [serve, hk]
      simp only
      rw [hg]
      simp only
      rw [h1]
    · intro i hi
      cases i with
      | zero => simp
      | succ i =>
        rw [List.getElem?_cons_succ, h3 i (by simpa using hi)]
        congr 2
        rw [List.take_succ_cons, List.zipIdx_cons, List.filter_cons]
        have hz : ((ins.take i).zipIdx (0 + 1)).filter (fun p => decide ((count + p.2) % n = (count + (i + 1)) % n)) =
            (((ins.take i).zipIdx.filter fun p => decide ((count + 1 + p.2) % n = (count + 1 + i) % n)).map fun p => (p.1, p.2 + 1)) := by
          rw [show (0 : Nat) + 1 = 1 from rfl, List.zipIdx_succ, List.filter_map]
          congr 1
          apply List.filter_congr
          intro p _
          simp only [Function.comp]
          rw [show count + (p.2 + 1) = count + 1 + p.2 by omega, show count + (i + 1) = count + 1 + i by omega]
        rw [hz]
        by_cases h : (count + 1 + i) % n = count % n
        · rw [if_pos h, if_pos (by simp only [decide_eq_true_eq]; rw [Nat.add_zero, show count + (i + 1) = count + 1 + i by omega, h])]
          simp only [List.map_cons, List.map_map, List.foldl_cons]
          rw [show (count + (i + 1)) % n = count % n by rw [← h]; congr 1; omega]
          rfl
        · rw [if_neg h, if_neg (by simp only [decide_eq_true_eq]; rw [Nat.add_zero, show count + (i + 1) = count + 1 + i by omega]; exact fun e => h e.symm)]
          simp only [List.map_map]
          rw [show (count + (i + 1)) % n = (count + 1 + i) % n by congr 1; omega]
          rfl

/-- **C87** (partial) Without a format for keys, the files are given out in their order, and again from the beginning after the last: for call number `i` it is file `i` modulo the number of files, if nothing was done to the
containers that were given out.

Missing: see `C87_shared_violated`, `C87_empty_violated`. -/
theorem C87_cycle_partial (E : Env) (read : Str → Option (Cont δ)) (files : List Str) (xs : List (Cont δ)) (h : Reads read files xs) (h0 : xs ≠ []) (ds : List Dict) :
    ∃ outs, loadAndSelect E read none files (ds.map fun d => (d, id)) = .ok outs ∧ outs.length = ds.length ∧ ∀ i < ds.length, outs[i]? = some xs[i % xs.length]? := by
  obtain ⟨coll, hs, hl, hg⟩ := setup_positions E read files xs h 0 [] rfl (fun _ _ => rfl)
  have hn : 0 < xs.length := List.length_pos_iff.2 h0
  obtain ⟨outs, h1, h2, h3⟩ := serve_positions E xs.length hn (ds.map fun d => (d, id)) 0 coll (by simpa using hl) (fun i => xs[i]?.getD (xs.head h0)) (by
    intro i hi
    rw [hg i]
    simp [List.getElem?_eq_getElem hi])
  refine ⟨outs, ?_, by simpa using h2, ?_⟩
  · unfold loadAndSelect
    rw [hs]
    exact h1
  · intro i hi
    rw [h3 i (by simpa using hi)]
    have hid : ∀ (l : List ((Dict × (Cont δ → Cont δ)) × Nat)) (x : Cont δ), (∀ p ∈ l, p.1.2 = id) → (l.map (·.1.2)).foldl (fun c f => f c) x = x := by
      intro l
      induction l with
      | nil => intro x _; rfl
      | cons p l ih =>
        intro x hp
        rw [List.map_cons, List.foldl_cons, hp p List.mem_cons_self]
        exact ih x fun q hq => hp q (List.mem_cons_of_mem _ hq)
    rw [hid]
    · rw [Nat.zero_add, List.getElem?_eq_getElem (Nat.mod_lt i hn)]
      rfl
    · intro p hp
      have hp := (List.mem_filter.1 hp).1
      have hp := List.fst_mem_of_mem_zipIdx hp
      have hp := List.mem_of_mem_take hp
      obtain ⟨d, _, hd⟩ := List.mem_map.1 hp
      rw [← hd]

/-- **C87** (violated) What is given out is not what is in the file, if it was changed after it was given out before: with one file, the changes add up. -/
theorem C87_shared_violated (E : Env) (read : Str → Option (Cont δ)) (file : Str) (x : Cont δ) (h : read file = some x) (f : Cont δ → Cont δ) (d : Dict) (m : Nat) :
    ∃ outs, loadAndSelect E read none [file] (List.replicate m (d, f)) = .ok outs ∧ ∀ i < m, outs[i]? = some (some (f^[i] x)) := by
  obtain ⟨coll, hs, hl, hg⟩ := setup_positions E read [file] [x] (by simp [Reads, h]) 0 [] rfl (fun _ _ => rfl)
  obtain ⟨outs, h1, h2, h3⟩ := serve_positions E 1 (by omega) (List.replicate m (d, f)) 0 coll (by simpa using hl) (fun _ => x) (by
    intro i hi
    rw [hg i]
    have : i = 0 := by omega
    subst this
    rfl)
  refine ⟨outs, ?_, ?_⟩
  · unfold loadAndSelect
    rw [hs]
    exact h1
  · intro i hi
    rw [h3 i (by simpa using hi)]
    have : ∀ (k : Nat) (s : Nat) (x : Cont δ), (((List.replicate k (d, f)).zipIdx s).map (·.1.2)).foldl (fun c f => f c) x = f^[k] x := by
      intro k
      induction k with
      | zero => intro s x; rfl
      | succ k ih =>
        intro s x
        rw [List.replicate_succ, List.zipIdx_cons, List.map_cons, List.foldl_cons, ih, Function.iterate_succ_apply]
    congr 2
    rw [List.filter_eq_self.2 (by simp [Nat.mod_one]), List.take_replicate, this, Nat.min_eq_left (by omega)]

/-- **C87** (violated) If there are no files, an input is a `ZeroDivisionError`. -/
theorem C87_empty_violated (E : Env) (read : Str → Option (Cont δ)) (d : Dict) (f : Cont δ → Cont δ) (ins : List (Dict × (Cont δ → Cont δ))) :
    loadAndSelect E read none [] ((d, f) :: ins) = .error .zeroDivision := rfl

theorem put_same (d : Dict) (k : Str) (v : AVal) : d.put k v k = some v := if_pos rfl

theorem put_ne (d : Dict) (k : Str) (v : AVal) (a : Str) (h : a ≠ k) : d.put k v a = d a := if_neg h

/-- The default attributes of an output: only the tag is set. -/
theorem default_output (E : Env) (c : Save.Cfg) (hs : c.save = .one false) (hn : c.nanCheck = false) (ht : c.tag = [.field "tag".toList]) (ha : c.attrs = []) (hk : c.outKeys = none) (z : Cont δ) (k : Nat) (w : Str)
    (hw : Save.tagOf k z.attrs = .ok (.str w)) : Save.processOutput E c k 0 (.cont z) = .ok (some { z with attrs := z.attrs.put "tag".toList (.str w) }, []) := by
  have h1 : "tag".toList ≠ "count".toList := by decide +kernel
  have h2 : "tag".toList ≠ "task".toList := by decide +kernel
  have h3 : "tag".toList ≠ "key".toList := by decide +kernel
  have h4 : "tag".toList ≠ "output_root".toList := by decide +kernel
  obtain ⟨d, hd, hdt⟩ : ∃ d, Save.interp c k z.attrs 0 = .ok d ∧ d "tag".toList = some (.str w) := by
    refine ⟨((((z.attrs.put "tag".toList (.str w)).put "count".toList (.num k)).put "task".toList (.str c.task)).put "key".toList (.str [])).put "output_root".toList (.str c.outputRoot), ?_, ?_⟩
    · unfold Save.interp Save.keyOf
      rw [hw, hk]
    · rw [put_ne _ _ _ _ h4, put_ne _ _ _ _ h3, put_ne _ _ _ _ h2, put_ne _ _ _ _ h1, put_same]
  have hset : Save.attrsToSet c = [("tag".toList, .fmt [.field "tag".toList])] := by
    unfold Save.attrsToSet
    rw [ha, ht]
    rfl
  have hattr : Save.setAttrs E d z.attrs (Save.attrsToSet c) = .ok (z.attrs.put "tag".toList (.str w)) := by
    rw [hset]
    generalize "tag".toList = tg at *
    simp [Save.setAttrs, Save.setAttr, Save.format, hdt, Env.show]
  unfold Save.processOutput
  simp only [hd, hattr]
  unfold Save.nanOutput
  simp only [hn, Bool.false_and, Bool.false_eq_true, if_false]
  unfold Save.saveOutput
  simp only [hs, Save.OneOrList.at, List.append_nil]

/-- **C87** (violated) Also the task itself changes what it gives out: the container gets the tag of the input it was first given out for, and keeps this tag when it is given out for another input (with the default format of
tags). -/
theorem C87_tag_violated (E : Env) (c : Save.Cfg) (hs : c.save = .one false) (hn : c.nanCheck = false) (ht : c.tag = [.field "tag".toList]) (ha : c.attrs = []) (hk : c.outKeys = none) (x : Cont δ)
    (hx : x.attrs "tag".toList = none) (t u : Str) (m n : Nat) :
    ∃ x1 x2 y1 y2, Save.putTags [t] (.cont x) = .ok (.cont x1) ∧ Save.processOutput E c m 0 (.cont x1) = .ok (some y1, []) ∧ y1.attrs "tag".toList = some (.str t) ∧
      Save.putTags [u] (.cont y1) = .ok (.cont x2) ∧ Save.processOutput E c n 0 (.cont x2) = .ok (some y2, []) ∧ y2.attrs "tag".toList = some (.str t) := by
  have hne : "tag".toList ≠ "input_tags".toList := by decide +kernel
  refine ⟨{ x with attrs := x.attrs.put "input_tags".toList (.strs [t]) }, _, _, _, rfl, default_output E c hs hn ht ha hk _ m t ?_, ?_, rfl, default_output E c hs hn ht ha hk _ n t ?_, ?_⟩
  · unfold Save.tagOf
    simp only
    rw [put_ne _ _ _ _ hne, hx]
    simp only
    rw [put_same]
  · simp only
    rw [put_same]
  · unfold Save.tagOf
    simp only
    rw [put_ne _ _ _ _ hne, put_same]
  · simp only
    rw [put_same]

/-! ### Labels -/

theorem setup_labels (E : Env) (read : Str → Option (Cont δ)) (p : List Piece) (files : List Str) (xs : List (Cont δ)) (h : Reads read files xs) (hk : ∀ x ∈ xs, ∃ s, fmt E x.attrs p = .ok s) (n : Nat)
    (coll : List (Key × Cont δ)) :
    ∃ coll', setupFrom E read (some p) n coll files = .ok coll' ∧ ∀ s, get coll' (.label s) = (xs.reverse.find? fun x => fmt E x.attrs p = .ok s).or (get coll (.label s)) := by
  induction files generalizing xs n coll with
  | nil =>
    have : xs = [] := by
      have : xs.length = 0 := by simpa using (congrArg List.length h).symm
      exact List.length_eq_zero_iff.1 this
    subst this
    exact ⟨coll, rfl, fun s => rfl⟩
  | cons f fs ih =>
    cases xs with
    | nil => simp [Reads] at h
    | cons x xs =>
      obtain ⟨h1, h2⟩ : read f = some x ∧ Reads read fs xs := by simpa [Reads] using h
      obtain ⟨s0, hs0⟩ := hk x List.mem_cons_self
      obtain ⟨coll', hs, hg⟩ := ih xs h2 (fun y hy => hk y (List.mem_cons_of_mem _ hy)) (n + 1) (put coll (.label s0) x)
      refine ⟨coll', ?_, fun s => ?_⟩
      · rw [setupFrom, loadFile, h1]
        simp only [hs0]
        exact hs
      · rw [hg, get_put, List.reverse_cons, List.find?_append, Option.or_assoc]
        congr 1
        by_cases he : s = s0
        · subst he
          simp [hs0]
        · rw [if_neg (by simpa using he)]
          have : fmt E x.attrs p ≠ .ok s := by
            rw [hs0]
            intro e
            exact he (Except.ok.inj e).symm
          simp [this]

/-- **C87** (partial) With a format for keys, an input is given the file that has the same key; the last one if there are several; and nothing if there is none.

Missing: see `C87_same_key_violated`; what was done to a container that was given out stays. -/
theorem C87_key_partial (E : Env) (read : Str → Option (Cont δ)) (p : List Piece) (files : List Str) (xs : List (Cont δ)) (h : Reads read files xs) (hk : ∀ x ∈ xs, ∃ s, fmt E x.attrs p = .ok s)
    (d : Dict) (after : Cont δ → Cont δ) (s : Str) (hd : fmt E d p = .ok s) :
    ∃ o, loadAndSelect E read (some p) files [(d, after)] = .ok [o] ∧
      ((∀ x ∈ xs, fmt E x.attrs p ≠ .ok s) → o = none) ∧
      ∀ a x b, xs = a ++ x :: b → fmt E x.attrs p = .ok s → (∀ y ∈ b, fmt E y.attrs p ≠ .ok s) → o = some x := by
  obtain ⟨coll, hs, hg⟩ := setup_labels E read p files xs h hk 0 []
  have hg := hg s
  rw [get_nil, Option.or_none] at hg
  refine ⟨get coll (.label s), ?_, ?_, ?_⟩
  · unfold loadAndSelect
    rw [hs]
    simp only [serve, selectKey, hd]
    cases hc : get coll (.label s) with
    | none => simp
    | some c => simp [hc]
  · intro hn
    rw [hg, List.find?_eq_none]
    intro x hx
    simpa using hn x (List.mem_reverse.1 hx)
  · rintro a x b rfl hx hb
    rw [hg, List.reverse_append, List.reverse_cons, List.find?_append, List.find?_append]
    have : b.reverse.find? (fun x => decide (fmt E x.attrs p = .ok s)) = none := by
      rw [List.find?_eq_none]
      intro y hy
      simpa using hb y (List.mem_reverse.1 hy)
    rw [this]
    simp [hx]

theorem serve_labels (E : Env) (p : List Piece) (ins : List (Dict × Str)) (hd : ∀ e ∈ ins, fmt E e.1 p = .ok e.2) (count : Nat) (coll : List (Key × Cont δ)) :
    serve E (some p) count coll (ins.map fun e => (e.1, id)) = .ok (ins.map fun e => get coll (.label e.2)) := by
  induction ins generalizing count coll with
  | nil => rfl
  | cons e ins ih =>
    have hd' := fun x hx => hd x (List.mem_cons_of_mem _ hx)
    rw [List.map_cons, serve]
    simp only [selectKey, hd e List.mem_cons_self]
    cases hc : get coll (.label e.2) with
    | none => simp [ih hd', hc]
    | some c =>
      have : ∀ s, get (put coll (.label e.2) c) (.label s) = get coll (.label s) := by
        intro s
        rw [get_put]
        by_cases h : Key.label s = Key.label e.2
        · rw [if_pos h, h, hc]
        · rw [if_neg h]
      simp [ih hd', hc, this]

/-- **C87** (partial) The same for any number of inputs, if nothing is done to the containers that are given out: each is given what it would be given alone.

Missing: what was done to a container that was given out stays. -/
theorem C87_keys_partial (E : Env) (read : Str → Option (Cont δ)) (p : List Piece) (files : List Str) (xs : List (Cont δ)) (h : Reads read files xs) (hk : ∀ x ∈ xs, ∃ s, fmt E x.attrs p = .ok s)
    (ins : List (Dict × Str)) (hd : ∀ e ∈ ins, fmt E e.1 p = .ok e.2) :
    ∃ outs, loadAndSelect E read (some p) files (ins.map fun e => (e.1, id)) = .ok outs ∧ outs.length = ins.length ∧
      ∀ (i : Nat) (d : Dict) (s : Str), ins[i]? = some (d, s) → ∃ o, outs[i]? = some o ∧ loadAndSelect E read (some p) files [(d, id)] = .ok [o] := by
  obtain ⟨coll, hs, _⟩ := setup_labels E read p files xs h hk 0 []
  refine ⟨ins.map fun e => get coll (.label e.2), ?_, by simp, ?_⟩
  · unfold loadAndSelect
    rw [hs]
    exact serve_labels E p ins hd 0 coll
  · intro i d s hi
    refine ⟨get coll (.label s), by rw [List.getElem?_map, hi]; rfl, ?_⟩
    unfold loadAndSelect
    rw [hs]
    exact serve_labels E p [(d, s)] (by
      intro e he
      rw [List.mem_singleton.1 he]
      exact hd _ (List.mem_of_getElem? hi)) 0 coll

/-- **C87** (violated) Of two files with the same key, the first is lost, without an error. -/
theorem C87_same_key_violated (E : Env) (read : Str → Option (Cont δ)) (p : List Piece) (f g : Str) (x y : Cont δ) (hf : read f = some x) (hg : read g = some y) (s : Str) (hx : fmt E x.attrs p = .ok s)
    (hy : fmt E y.attrs p = .ok s) (d : Dict) (after : Cont δ → Cont δ) (hd : fmt E d p = .ok s) : loadAndSelect E read (some p) [f, g] [(d, after)] = .ok [some y] := by
  obtain ⟨o, h1, _, h3⟩ := C87_key_partial E read p [f, g] [x, y] (by simp [Reads, hf, hg]) (by
    intro z hz
    rcases List.mem_cons.1 hz with rfl | hz
    · exact ⟨s, hx⟩
    · rw [List.mem_singleton.1 hz]
      exact ⟨s, hy⟩) d after s hd
  rw [h1, h3 [x] y [] rfl hy (by simp)]

/-- **C87** An attribute that the format needs and the input does not have is a `KeyError`. -/
theorem C87_key_missing (E : Env) (read : Str → Option (Cont δ)) (p : List Piece) (files : List Str) (xs : List (Cont δ)) (h : Reads read files xs) (hk : ∀ x ∈ xs, ∃ s, fmt E x.attrs p = .ok s)
    (d : Dict) (after : Cont δ → Cont δ) (n : Str) (hn : .field n ∈ p) (hd : d n = none) : loadAndSelect E read (some p) files [(d, after)] = .error .keyError := by
  obtain ⟨coll, hs, hg⟩ := setup_labels E read p files xs h hk 0 []
  have : fmt E d p = .error .keyError := by
    have key : ∃ e, Save.format E d p = .error e := by
      clear hs hg hk
      induction p with
      | nil => cases hn
      | cons q p ih =>
        cases q with
        | lit t =>
          obtain ⟨e, he⟩ := ih (by simpa using hn)
          exact ⟨e, by rw [Save.format, he]⟩
        | field m =>
          by_cases hm : m = n
          · subst hm
            exact ⟨_, by rw [Save.format, hd]⟩
          · obtain ⟨e, he⟩ := ih (by
              rcases List.mem_cons.1 hn with h | h
              · cases h
                exact absurd rfl hm
              · exact h)
            rw [Save.format]
            cases d m with
            | none => exact ⟨_, rfl⟩
            | some v =>
              simp only [he]
              exact ⟨_, rfl⟩
    obtain ⟨e, he⟩ := key
    unfold fmt
    rw [he]
  unfold loadAndSelect
  rw [hs]
  simp [serve, selectKey, this]

/-! ### Paths from attributes -/

/-- The text of a format, with the attributes in place of their names. -/
inductive Filled (E : Env) (d : Dict) : List Piece → Str → Prop
  | nil : Filled E d [] []
  | lit {p s} (t : Str) : Filled E d p s → Filled E d (.lit t :: p) (t ++ s)
  | field {p s} (n : Str) (v : AVal) : d n = some v → Filled E d p s → Filled E d (.field n :: p) (E.show v ++ s)

/-- **C87** The file that is loaded for an input is the one whose path has the attributes of the input in place of their names; if it does not exist that is a `RuntimeError`. -/
theorem C87_attrs (E : Env) (read : Str → Option (Cont δ)) (p : List Piece) (d : Dict) (f : Str) (h : Filled E d p f) :
    (∀ c, read f = some c → loadFromAttrs E read p d = .ok c) ∧ (read f = none → loadFromAttrs E read p d = .error .runtimeError) := by
  have hf : fmt E d p = .ok f := by
    have : Save.format E d p = .ok f := by
      induction h with
      | nil => rfl
      | lit t _ ih => rw [Save.format, ih]
      | field n v hv _ ih => rw [Save.format, hv, ih]
    unfold fmt
    rw [this]
  unfold loadFromAttrs
  rw [hf]
  constructor
  · intro c hc
    simp [loadFile, hc]
  · intro hc
    simp [loadFile, hc]

/-! ### Paths with tags -/

/-- A part of a path: a character, or the place of the tag. -/
inductive Part where
  | char (c : Char)
  | tag

/-- How a path is written: braces are doubled, the place of the tag is `{tag}`. -/
def written : List Part → Str
  | [] => []
  | .char c :: l => if c = '{' ∨ c = '}' then c :: c :: written l else c :: written l
  | .tag :: l => "{tag}".toList ++ written l

/-- The path with a tag. -/
def withTag (tag : Str) : List Part → Str
  | [] => []
  | .char c :: l => c :: withTag tag l
  | .tag :: l => tag ++ withTag tag l

theorem formatTag_written (tag : Str) (l : List Part) : formatTag tag (written l) = .ok (withTag tag l) := by
  induction l with
  | nil => rfl
  | cons p l ih =>
    cases p with
    | tag =>
      show formatTag tag ('{' :: 't' :: 'a' :: 'g' :: '}' :: written l) = _
      rw [formatTag]
      · rw [ih]
        rfl
    | char c =>
      rw [written]
      split
      · rename_i h
        rcases h with rfl | rfl
        · rw [formatTag, ih]
          rfl
        · rw [formatTag, ih]
          rfl
      · rename_i h
        rw [not_or] at h
        rw [formatTag]
        · rw [if_neg (by simp [h]), ih]
          rfl
        · rintro r rfl
          exact absurd rfl h.1
        · rintro r rfl
          exact absurd rfl h.2
        · rintro r rfl
          exact absurd rfl h.1

theorem filesOfPath_ok (p : List Part) (tags : List Str) : filesOfPath (written p) tags = .ok (tags.map fun t => withTag t p) := by
  induction tags with
  | nil => rfl
  | cons t ts ih => rw [filesOfPath, formatTag_written, ih]; rfl

/-- **C87** The files are all paths with all tags: for each path in order the tags in order. -/
theorem C87_paths (paths : List (List Part)) (tags : List Str) : ∃ files, filesOf tags (paths.map written) = .ok files ∧ files.length = paths.length * tags.length ∧
    ∀ i p, paths[i]? = some p → ∀ j t, tags[j]? = some t → files[i * tags.length + j]? = some (withTag t p) := by
  induction paths with
  | nil => exact ⟨[], rfl, by simp, by simp⟩
  | cons p ps ih =>
    obtain ⟨files, h1, h2, h3⟩ := ih
    refine ⟨(tags.map fun t => withTag t p) ++ files, ?_, ?_, ?_⟩
    · rw [List.map_cons, filesOf, filesOfPath_ok, h1]
    · simp [h2, Nat.succ_mul, Nat.add_comm]
    · intro i q hq j t ht
      have hj : j < tags.length := (List.getElem?_eq_some_iff.1 ht).1
      cases i with
      | zero =>
        cases hq
        rw [Nat.zero_mul, Nat.zero_add, List.getElem?_append_left (by simpa using hj), List.getElem?_map, ht]
        rfl
      | succ i =>
        rw [List.getElem?_append_right (by rw [List.length_map, Nat.succ_mul]; omega), List.length_map,
          show (i + 1) * tags.length + j - tags.length = i * tags.length + j by rw [Nat.succ_mul]; omega]
        exact h3 i q (by simpa using hq) j t ht

example : filesOf ["a".toList, "b".toList] ["d/{tag}.h5".toList, "e{{{tag}".toList] = .ok ["d/a.h5".toList, "d/b.h5".toList, "e{a".toList, "e{b".toList] := by decide +kernel

/-! ### Save -/

/-- The text for the tag in the name of file number `i`: its tag, or else how many containers without a tag came before it. -/
def textOf (items : List (Option Str × δ)) (i : Nat) (tag : Option Str) : Str :=
  match tag with
  | some t => t
  | none => Nat.toDigits 10 ((items.take i).countP fun e => e.1.isNone)

theorem toDigits_inj {a b : Nat} (h : Nat.toDigits 10 a = Nat.toDigits 10 b) : a = b := by
  have := congrArg (fun l => Nat.ofDigitChars 10 l 0) h
  simpa [Nat.ofDigitChars_toDigits] using this

theorem saveName_inj {root a b : Str} (h : saveName root a = saveName root b) : a = b := by
  unfold saveName at h
  have := List.append_cancel_left h
  exact List.append_cancel_right (List.cons.inj this).2

theorem saveAll_other (root : Str) (items : List (Option Str × δ)) (count : Nat) (files : Str → Option δ) (f : Str) (ht : ∀ e ∈ items, ∀ t, e.1 = some t → f ≠ saveName root t)
    (hn : ∀ n, count ≤ n → f ≠ saveName root (Nat.toDigits 10 n)) : saveAll root count files items f = files f := by
  induction items generalizing count files with
  | nil => rfl
  | cons e l ih =>
    obtain ⟨t, x⟩ := e
    cases t with
    | none =>
      rw [saveAll, ih _ _ (fun e he => ht e (List.mem_cons_of_mem _ he)) (fun n hn' => hn n (by omega)), if_neg (hn count (Nat.le_refl _))]
    | some t =>
      rw [saveAll, ih _ _ (fun e he => ht e (List.mem_cons_of_mem _ he)) hn, if_neg (ht _ List.mem_cons_self t rfl)]

theorem saveAll_from (root : Str) (items : List (Option Str × δ)) (count : Nat) (files : Str → Option δ)
    (hd : ∀ (i j : Nat) (t : Str) (x y : δ), items[i]? = some (some t, x) → items[j]? = some (some t, y) → i = j) (hn : ∀ t x, (some t, x) ∈ items → ∀ n, t ≠ Nat.toDigits 10 n) (i : Nat) (tag : Option Str) (x : δ)
    (hi : items[i]? = some (tag, x)) :
    saveAll root count files items (saveName root (match tag with | some t => t | none => Nat.toDigits 10 (count + (items.take i).countP fun e => e.1.isNone))) = some x := by
  induction items generalizing count files i with
  | nil => simp at hi
  | cons e l ih =>
    have hd' : ∀ (i j : Nat) (t : Str) (x y : δ), l[i]? = some (some t, x) → l[j]? = some (some t, y) → i = j := fun i j t x y h1 h2 => by
      have := hd (i + 1) (j + 1) t x y (by simpa using h1) (by simpa using h2)
      omega
    have hn' : ∀ t x, (some t, x) ∈ l → ∀ n, t ≠ Nat.toDigits 10 n := fun t x h => hn t x (List.mem_cons_of_mem _ h)
    cases i with
    | zero =>
      simp only [List.getElem?_cons_zero, Option.some.injEq] at hi
      subst hi
      cases tag with
      | none =>
        rw [saveAll, saveAll_other]
        · simp
        · rintro ⟨t, y⟩ he t' rfl hf
          exact hn' t' y he _ (saveName_inj hf).symm
        · intro n hc hf
          have := toDigits_inj (saveName_inj hf)
          simp at this
          omega
      | some t =>
        rw [saveAll, saveAll_other]
        · simp
        · rintro ⟨t', y⟩ he t'' rfl hf
          have hf := saveName_inj hf
          simp only at hf
          subst hf
          obtain ⟨j, hj⟩ := List.mem_iff_getElem?.1 he
          have := hd 0 (j + 1) t x y rfl (by simpa using hj)
          omega
        · intro n _ hf
          exact hn t x List.mem_cons_self n (saveName_inj hf)
    | succ i =>
      rw [List.getElem?_cons_succ] at hi
      obtain ⟨t, y⟩ := e
      cases t with
      | none =>
        rw [saveAll]
        have := ih (count + 1) (fun f => if f = saveName root (Nat.toDigits 10 count) then some y else files f) hd' hn' i hi
        cases tag with
        | some t => exact this
        | none =>
          simp only [List.take_succ_cons, List.countP_cons, Option.isNone_none, if_true]
          rw [show count + ((List.take i l).countP (fun e => e.1.isNone) + 1) = count + 1 + (List.take i l).countP (fun e => e.1.isNone) by omega]
          exact this
      | some t' =>
        rw [saveAll]
        have := ih count (fun f => if f = saveName root t' then some y else files f) hd' hn' i hi
        cases tag with
        | some t => exact this
        | none => simpa using this

/-- **C87** (partial) Whatever is saved stays there: if the tags are different from each other and none is a number, after any sequence of containers each is in the file with its tag, or with the number of those
without a tag that came before it.

Missing: see `C87_save_violated`. -/
theorem C87_save_partial (root : Str) (items : List (Option Str × δ)) (files : Str → Option δ) (hd : ∀ (i j : Nat) (t : Str) (x y : δ), items[i]? = some (some t, x) → items[j]? = some (some t, y) → i = j)
    (hn : ∀ t x, (some t, x) ∈ items → ∀ n, t ≠ Nat.toDigits 10 n) (i : Nat) (tag : Option Str) (x : δ) (hi : items[i]? = some (tag, x)) :
    saveAll root 0 files items (root ++ "_".toList ++ textOf items i tag ++ ".h5".toList) = some x := by
  have := saveAll_from root items 0 files hd hn i tag x hi
  have e : root ++ "_".toList ++ textOf items i tag ++ ".h5".toList = saveName root (textOf items i tag) := by
    rw [saveName, List.append_assoc, List.append_assoc]
    rfl
  rw [e]
  cases tag with
  | some t => exact this
  | none =>
    rw [Nat.zero_add] at this
    exact this

example : (fun f => saveAll "out".toList 0 (fun _ => none) [(none, 5), (some "a".toList, 6), (none, 7)] f) "out_1.h5".toList = some 7 := by decide +kernel

/-- **C87** (violated) A container whose tag is a number overwrites the one that was given this number, and two with the same tag overwrite each other: the first is in no file. -/
theorem C87_save_violated (root : Str) (x y : δ) (hxy : x ≠ y) (t : Str) (f : Str) :
    saveAll root 0 (fun _ => none) [(none, x), (some "0".toList, y)] f ≠ some x ∧ saveAll root 0 (fun _ => none) [(some t, x), (some t, y)] f ≠ some x := by
  have h0 : Nat.toDigits 10 0 = "0".toList := by decide +kernel
  constructor
  · rw [saveAll, saveAll, saveAll, h0]
    generalize "0".toList = z
    by_cases h : f = saveName root z
    · simpa [h] using fun e => hxy e.symm
    · simp [h]
  · rw [saveAll, saveAll, saveAll]
    by_cases h : f = saveName root t
    · simpa [h] using fun e => hxy e.symm
    · simp [h]

/-! ### Examples -/

def exEnv : Env := ⟨fun _ => [], fun _ => [], id⟩

/-- A file of a day. -/
def exCont (day : String) (x : Nat) : Cont Nat := { attrs := fun n => if n = "day".toList then some (.str day.toList) else none, bad := false, data := x }

def exRead (f : Str) : Option (Cont Nat) :=
  if f = "a".toList then some (exCont "mon" 1) else if f = "b".toList then some (exCont "tue" 2) else if f = "mon.h5".toList then some (exCont "mon" 3) else none

def exKey : List Piece := [.lit "day ".toList, .field "day".toList]

/-- The data that is given out. -/
def datas (r : Except Err (List (Option (Cont Nat)))) : Option (List (Option Nat)) :=
  match r with
  | .ok l => some (l.map (·.map (·.data)))
  | .error _ => none

example : Reads exRead ["a".toList, "b".toList] [exCont "mon" 1, exCont "tue" 2] := by
  simp [Reads, exRead]

example : datas (loadAndSelect exEnv exRead none ["a".toList, "b".toList] (List.replicate 3 (fun _ => none, id))) = some [some 1, some 2, some 1] := by decide +kernel

example : datas (loadAndSelect exEnv exRead none ["a".toList, "b".toList] (List.replicate 4 (fun _ => none, fun c => { c with data := c.data * 10 }))) = some [some 1, some 2, some 10, some 20] := by decide +kernel

example : datas (loadAndSelect exEnv exRead (some exKey) ["a".toList, "b".toList] [((exCont "tue" 0).attrs, id), ((exCont "sun" 0).attrs, id)]) = some [some 2, none] := by decide +kernel

example : datas (loadAndSelect exEnv exRead (some exKey) ["a".toList, "mon.h5".toList] [((exCont "mon" 0).attrs, id)]) = some [some 3] := by decide +kernel

example : Filled exEnv (exCont "mon" 0).attrs [.field "day".toList, .lit ".h5".toList] "mon.h5".toList :=
  .field (p := [.lit ".h5".toList]) (s := ".h5".toList) _ (.str "mon".toList) (by simp [exCont]) (.lit (p := []) (s := []) _ .nil)

end Verif.Loading
