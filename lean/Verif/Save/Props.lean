import Verif.Save.Lemmas

/-!
# C69: outputs of container tasks
-/
namespace Verif.Save

variable {δ σ : Type}

theorem withTags_at (tags : List Str) (x : Cont δ) : (withTags tags x).attrs "input_tags".toList = some (.strs tags) := by
  show (if "input_tags".toList = "input_tags".toList then some (AVal.strs tags) else x.attrs "input_tags".toList) = _
  exact if_pos rfl

theorem Produces.length_eq {E : Env} {process : σ → List (Item δ) → Except PyErr (σ × Out δ)} {t t' : σ}
    {xs : List (List (Item δ))} {ys : List (Cont δ)} (h : Produces E process t xs ys t') : xs.length = ys.length := by
  induction h with
  | nil => rfl
  | cons _ _ _ _ _ _ _ _ _ _ ih => simp [ih]

/-- **C69** (call). A call of `next` that succeeds handles every output as it should be: the tags of the inputs, the
tag and the attributes of the configuration are set and all else is unchanged, values refer to the attributes as they
were before, outputs with NaNs are dumped and dropped if so configured, the others are written if so configured under
the name that the configuration gives, and the outputs are passed on in order. -/
theorem C69_next (E : Env) (c : Cfg) (hn : (c.attrs.map (·.1)).Nodup) (u : User δ σ) (s s' : St δ σ) (inputs : List (Item δ))
    (ret : Ret δ) (h : next E c u s inputs = .ok (ret, s')) :
    ∃ t out, u.process s.user inputs = .ok (t, out) ∧ s'.user = t ∧
      ((out = .none ∧ ret = .none ∧ s'.count = s.count ∧ s'.trace = s.trace) ∨
        ∃ (xs : List (Cont δ)) (rets : List (Option (Cont δ))) (evss : List (List (Ev δ))),
          (out = .many (xs.map .cont) ∨ ∃ x, xs = [x] ∧ out = .one (.cont x)) ∧
          rets.length = xs.length ∧ evss.length = xs.length ∧ Gives ret rets ∧
          s'.trace = s.trace ++ evss.flatten ∧ s'.count = s.count + 1 ∧
          ∀ (k : Nat) x, xs[k]? = some x → ∃ r e, rets[k]? = some r ∧ evss[k]? = some e ∧
            Handled E c s.count k (withTags (inputs.map (inputTag E)) x) r e) := by
  unfold next at h
  simp only at h
  split at h
  · cases h
  · cases hp : u.process s.user inputs with
    | error e => rw [hp] at h; cases h
    | ok r =>
      obtain ⟨t, out⟩ := r
      rw [hp] at h
      simp only at h
      refine ⟨t, out, rfl, ?_⟩
      cases hi : out.items with
      | none =>
        rw [hi] at h
        simp only [Except.ok.injEq, Prod.mk.injEq] at h
        obtain ⟨rfl, rfl⟩ := h
        refine ⟨rfl, .inl ⟨?_, rfl, rfl, rfl⟩⟩
        cases out <;> first | rfl | cases hi
      | some l =>
        rw [hi] at h
        simp only at h
        cases h1 : putTagsAll (inputs.map (inputTag E)) l with
        | error e => rw [h1] at h; cases h
        | ok l' =>
          rw [h1] at h
          simp only at h
          obtain ⟨xs, q1, q2⟩ := putTagsAll_spec _ _ _ h1
          cases h2 : processOutputs E c s.count 0 l' with
          | error e => rw [h2] at h; cases h
          | ok r =>
            obtain ⟨rets, evs⟩ := r
            rw [h2] at h
            simp only at h
            cases h3 : wrap rets with
            | error e => rw [h3] at h; cases h
            | ok rr =>
              rw [h3] at h
              simp only [Except.ok.injEq, Prod.mk.injEq] at h
              obtain ⟨rfl, rfl⟩ := h
              obtain ⟨ys, evss, w1, w2, w3, w4, w5⟩ := processOutputs_spec E c hn s.count l'
                (by
                  intro x hx
                  rw [q2] at hx
                  obtain ⟨z, hz, hze⟩ := List.mem_map.1 hx
                  obtain rfl := Item.cont.inj hze
                  obtain ⟨w, -, rfl⟩ := List.mem_map.1 hz
                  exact .inr (.inr ⟨inputs.map (inputTag E), withTags_at _ _⟩)) 0 rets evs h2
              have hys : ys = xs.map (withTags (inputs.map (inputTag E))) := by
                have := w1.symm.trans q2
                exact (List.map_inj_right (fun _ _ h => Item.cont.inj h)).1 this
              subst hys
              rw [List.length_map] at w2 w3
              refine ⟨rfl, .inr ⟨xs, rets, evss, ?_, w2, w3, wrap_spec _ _ h3, by rw [w4], rfl, ?_⟩⟩
              · cases out with
                | none => cases hi
                | one i =>
                  obtain rfl : [i] = l := Option.some.inj hi
                  match xs, q1 with
                  | [x], q1 =>
                    refine .inr ⟨x, rfl, ?_⟩
                    simp only [List.map_cons, List.map_nil, List.cons.injEq, and_true] at q1
                    rw [q1]
                | many l0 =>
                  obtain rfl : l0 = l := Option.some.inj hi
                  exact .inl (by rw [q1])
              · intro k x hk
                obtain ⟨r, e, v1, v2, v3⟩ := w5 k (withTags (inputs.map (inputTag E)) x) (by rw [List.getElem?_map, hk]; rfl)
                exact ⟨r, e, v1, v2, by rw [Nat.zero_add] at v3; exact v3⟩

/-- **C69** (what is refused). A task that takes no input raises a `RuntimeError` if it is given one, and nothing is
called or saved; otherwise `process` decides: what it raises is raised, and if it gives nothing, nothing is passed on. -/
theorem C69_inputs (E : Env) (c : Cfg) (u : User δ σ) (s : St δ σ) (inputs : List (Item δ)) :
    (c.noInput = true → inputs ≠ [] → next E c u s inputs = .error .runtimeError) ∧
    (c.noInput = false ∨ inputs = [] →
      (∀ e, u.process s.user inputs = .error e → next E c u s inputs = .error e) ∧
      ∀ t, u.process s.user inputs = .ok (t, .none) → next E c u s inputs = .ok (.none, { s with user := t })) := by
  refine ⟨fun hc hi => ?_, fun h => ?_⟩
  · unfold next
    have : inputs.length ≠ 0 := fun h => hi (List.length_eq_zero_iff.1 h)
    simp [hc, this]
  · have hcond : (c.noInput && inputs.length != 0) = false := by
      rcases h with h | rfl
      · simp [h]
      · simp
    refine ⟨fun e he => ?_, fun t ht => ?_⟩
    · unfold next
      simp only [hcond, Bool.false_eq_true, if_false, he]
    · unfold next
      simp only [hcond, Bool.false_eq_true, if_false, ht, Out.items]

/-- **C69** (end). The same holds of what `process_finish` gives; here no tags of inputs are put in. -/
theorem C69_finish (E : Env) (c : Cfg) (hn : (c.attrs.map (·.1)).Nodup) (u : User δ σ)
    (f : σ → Except PyErr (σ × Out δ)) (hf : u.finish = some f) (s s' : St δ σ) (t : σ) (xs : List (Cont δ))
    (hp : f s.user = .ok (t, .many (xs.map .cont))) (ht : ∀ x ∈ xs, TagsOk x.attrs)
    (ret : Ret δ) (h : finish E c u s = .ok (ret, s')) :
    ∃ (rets : List (Option (Cont δ))) (evss : List (List (Ev δ))),
      rets.length = xs.length ∧ evss.length = xs.length ∧ Gives ret rets ∧ s'.trace = s.trace ++ evss.flatten ∧
      ∀ (k : Nat) x, xs[k]? = some x → ∃ r e, rets[k]? = some r ∧ evss[k]? = some e ∧ Handled E c s.count k x r e := by
  unfold finish at h
  rw [hf] at h
  simp only [hp, Out.items] at h
  cases h2 : processOutputs E c s.count 0 (xs.map Item.cont) with
  | error e => rw [h2] at h; cases h
  | ok r =>
    obtain ⟨rets, evs⟩ := r
    rw [h2] at h
    simp only at h
    cases h3 : wrap rets with
    | error e => rw [h3] at h; cases h
    | ok rr =>
      rw [h3] at h
      simp only [Except.ok.injEq, Prod.mk.injEq] at h
      obtain ⟨rfl, rfl⟩ := h
      obtain ⟨ys, evss, w1, w2, w3, w4, w5⟩ := processOutputs_spec E c hn s.count (xs.map Item.cont)
        (by
          intro x hx
          obtain ⟨z, hz, hze⟩ := List.mem_map.1 hx
          obtain rfl := Item.cont.inj hze
          exact ht _ hz) 0 rets evs h2
      have hys : ys = xs := ((List.map_inj_right (fun _ _ h => Item.cont.inj h)).1 w1).symm
      subst hys
      refine ⟨rets, evss, w2, w3, wrap_spec _ _ h3, by rw [w4], ?_⟩
      intro k x hk
      obtain ⟨r, e, v1, v2, v3⟩ := w5 k x hk
      exact ⟨r, e, v1, v2, by rw [Nat.zero_add] at v3; exact v3⟩

/-! ### Names -/

/-- The standard configuration, with saving: `tag: "{tag}"`, `output_name: "{output_root}{tag}.h5"`. -/
def standard (root task : Str) (noInput : Bool) : Cfg :=
  { save := .one true
    outputRoot := root
    outputName := .one [.field "output_root".toList, .field "tag".toList, .lit ".h5".toList]
    nanCheck := true
    nanSkip := true
    nanDump := true
    tag := [.field "tag".toList]
    attrs := []
    task := task
    outKeys := none
    noInput := noInput }

/-- The name of an output: by its own tag, else that of the first input, else its number. -/
def stem (E : Env) (k : Nat) (inputs : List (Item δ)) (y : Cont δ) : Str :=
  match y.attrs "tag".toList with
  | some v => E.show v
  | none => match inputs with
    | [] => E.num k
    | i :: _ => inputTag E i

/-- The files of one call after the other. -/
def files (E : Env) (root : Str) : Nat → List (List (Item δ)) → List (Cont δ) → List Str
  | k, x :: xs, y :: ys => E.expand (root ++ stem E k x y ++ ".h5".toList) :: files E root (k + 1) xs ys
  | _, _, _ => []

theorem savedFiles_append (l l' : List (Ev δ)) : savedFiles (l ++ l') = savedFiles l ++ savedFiles l' := by
  induction l with
  | nil => rfl
  | cons e l ih => cases e <;> simp [savedFiles, ih]

/-- One call in the standard configuration. -/
theorem next_standard (E : Env) (root task : Str) (u : User δ σ) (s : St δ σ) (inputs : List (Item δ)) (t : σ) (y : Cont δ)
    (hp : u.process s.user inputs = .ok (t, .one (.cont y))) (hb : y.bad = false) :
    ∃ r s', next E (standard root task false) u s inputs = .ok (r, s') ∧ s'.user = t ∧ s'.count = s.count + 1 ∧
      savedFiles s'.trace = savedFiles s.trace ++ [E.expand (root ++ stem E s.count inputs y ++ ".h5".toList)] := by
  have hstem : ∃ v, tagOf s.count ((y.attrs).put "input_tags".toList (.strs (inputs.map (inputTag E)))) = .ok v ∧
      E.show v = stem E s.count inputs y := by
    unfold tagOf stem
    rw [show (y.attrs).put "input_tags".toList (.strs (inputs.map (inputTag E))) "tag".toList = y.attrs "tag".toList from rfl]
    cases y.attrs "tag".toList with
    | some v => exact ⟨v, rfl, rfl⟩
    | none =>
      rw [show (y.attrs).put "input_tags".toList (.strs (inputs.map (inputTag E))) "input_tags".toList =
        some (.strs (inputs.map (inputTag E))) from rfl]
      cases inputs with
      | nil => exact ⟨_, rfl, rfl⟩
      | cons i l => exact ⟨_, rfl, rfl⟩
  obtain ⟨v, hv, hs⟩ := hstem
  unfold next
  simp only [standard, Bool.false_and, Bool.false_eq_true, if_false, hp, Out.items, putTagsAll, putTags, processOutputs,
    processOutput, interp, hv, keyOf, attrsToSet, List.any_nil, List.nil_append, setAttrs, setAttr, format]
  simp only [nanOutput, hb, Bool.and_false, Bool.false_and, Bool.false_eq_true, if_false, saveOutput, OneOrList.at, interp]
  have e1 : ∀ (d : Dict) (x : AVal), tagOf s.count (d.put "tag".toList x) = .ok x := fun d x => by
    unfold tagOf
    rw [show d.put "tag".toList x "tag".toList = some x from rfl]
  have e2 : ∀ (d : Dict) (a b c e : AVal), (((((d.put "tag".toList a).put "count".toList b).put "task".toList c).put
      "key".toList e).put "output_root".toList (.str root)) "tag".toList = some a := fun d a b c e => rfl
  have e3 : ∀ (d : Dict) (a b c e : AVal), (((((d.put "tag".toList a).put "count".toList b).put "task".toList c).put
      "key".toList e).put "output_root".toList (.str root)) "output_root".toList = some (.str root) := fun d a b c e => rfl
  have e4 : ∀ d : Dict, (d.put "output_root".toList (.str root)).put "output_root".toList (.str root) =
      d.put "output_root".toList (.str root) := by
    intro d
    funext n
    unfold Dict.put
    split <;> rfl
  simp only [e1, e2, e3, keyOf, e4, ite_self, format, wrap]
  refine ⟨_, _, rfl, rfl, rfl, ?_⟩
  have e5 : ∀ r : Str, E.show (.str r) = r := fun _ => rfl
  rw [savedFiles_append]
  simp only [List.append_nil, List.nil_append, savedFiles, e5, hs, List.append_assoc]

/-- **C69** (files). In the standard configuration, with saving, the outputs of the calls are written one after the
other to the files named by the tag of the output, or of the first input, or the number of the output. -/
theorem C69_files_partial (E : Env) (root task : Str) (u : User δ σ) (t t' : σ) (xs : List (List (Item δ))) (ys : List (Cont δ))
    (h : Produces E u.process t xs ys t') :
    ∃ rets s, calls E (standard root task false) u ⟨t, 0, []⟩ xs = .ok (rets, s) ∧ s.user = t' ∧
      savedFiles s.trace = files E root 0 xs ys := by
  have key : ∀ (xs : List (List (Item δ))) (ys : List (Cont δ)) (s : St δ σ), Produces E u.process s.user xs ys t' →
      ∃ rets s', calls E (standard root task false) u s xs = .ok (rets, s') ∧ s'.user = t' ∧
        savedFiles s'.trace = savedFiles s.trace ++ files E root s.count xs ys := by
    intro xs
    induction xs with
    | nil =>
      intro ys s h
      cases h
      exact ⟨[], s, rfl, rfl, by simp [files]⟩
    | cons x xs ih =>
      intro ys s h
      cases h with
      | cons _ t1 _ _ y _ ys hp hb hr =>
        obtain ⟨r, s1, q1, q2, q3, q4⟩ := next_standard E root task u s x t1 y hp hb
        obtain ⟨rets, s2, w1, w2, w3⟩ := ih ys s1 (by rw [q2]; exact hr)
        refine ⟨r :: rets, s2, ?_, w2, ?_⟩
        · unfold calls
          rw [q1]
          simp only [w1]
        · rw [w3, q4, q3, List.append_assoc]
          rfl
  obtain ⟨rets, s, h1, h2, h3⟩ := key xs ys ⟨t, 0, []⟩ h
  exact ⟨rets, s, h1, h2, by rw [h3]; rfl⟩

/-- **C69** (distinct). If the outputs carry different tags of their own, no file is written twice. -/
theorem C69_distinct_partial (E : Env) (root task : Str) (u : User δ σ) (t t' : σ) (xs : List (List (Item δ)))
    (ys : List (Cont δ)) (h : Produces E u.process t xs ys t') (tags : List Str)
    (hy : ys.map (fun y => y.attrs "tag".toList) = tags.map fun s => some (.str s)) (hd : tags.Nodup)
    (he : ∀ f g, E.expand f = E.expand g → f = g) :
    ∃ rets s, calls E (standard root task false) u ⟨t, 0, []⟩ xs = .ok (rets, s) ∧ (savedFiles s.trace).Nodup ∧
      savedFiles s.trace = tags.map fun s => E.expand (root ++ s ++ ".h5".toList) := by
  obtain ⟨rets, s, h1, -, h3⟩ := C69_files_partial E root task u t t' xs ys h
  have hl := h.length_eq
  have key : ∀ (ys : List (Cont δ)) (xs : List (List (Item δ))) (tags : List Str) k, xs.length = ys.length →
      ys.map (fun y => y.attrs "tag".toList) = tags.map (fun s => some (.str s)) →
      files E root k xs ys = tags.map fun s => E.expand (root ++ s ++ ".h5".toList) := by
    intro ys
    induction ys with
    | nil =>
      intro xs tags k hl ht
      cases tags with
      | nil => cases xs <;> simp [files]
      | cons a l => cases ht
    | cons y ys ih =>
      intro xs tags k hl ht
      cases xs with
      | nil => cases hl
      | cons x xs =>
        cases tags with
        | nil => cases ht
        | cons a l =>
          rw [List.map_cons, List.map_cons, List.cons.injEq] at ht
          rw [files, List.map_cons, ih xs l (k + 1) (by simpa using hl) ht.2]
          congr 1
          unfold stem
          rw [ht.1]
          rfl
  rw [key ys xs tags 0 hl hy] at h3
  refine ⟨rets, s, h1, ?_, h3⟩
  rw [h3]
  refine List.Pairwise.map _ ?_ hd
  intro a b hab e
  apply hab
  have := he _ _ e
  rw [List.append_assoc, List.append_assoc] at this
  exact List.append_cancel_right (List.append_cancel_left this)

/-- **C69** (numbers). If a task without inputs gives containers without tags, they are numbered from 0, and no file
is written twice. -/
theorem C69_numbered (E : Env) (root task : Str) (u : User δ σ) (t t' : σ) (n : Nat) (ys : List (Cont δ))
    (h : Produces E u.process t (List.replicate n []) ys t') (hy : ∀ y ∈ ys, y.attrs "tag".toList = none) :
    ∃ rets s, calls E (standard root task false) u ⟨t, 0, []⟩ (List.replicate n []) = .ok (rets, s) ∧
      savedFiles s.trace = (List.range n).map fun (k : Nat) => E.expand (root ++ E.num k ++ ".h5".toList) := by
  obtain ⟨rets, s, h1, -, h3⟩ := C69_files_partial E root task u t t' _ ys h
  have hl : n = ys.length := by simpa using h.length_eq
  subst hl
  refine ⟨rets, s, h1, ?_⟩
  rw [h3]
  clear h h1 h3
  have key : ∀ (ys : List (Cont δ)) k, (∀ y ∈ ys, y.attrs "tag".toList = none) →
      files E root k (List.replicate ys.length []) ys =
        (List.range ys.length).map fun j => E.expand (root ++ E.num ((k + j : Nat) : Int) ++ ".h5".toList) := by
    intro ys
    induction ys with
    | nil => intro k _; rfl
    | cons y ys ih =>
      intro k hy
      rw [List.length_cons, List.replicate_succ, files, ih (k + 1) fun z hz => hy z (List.mem_cons_of_mem _ hz),
        List.range_succ_eq_map, List.map_cons, List.map_map]
      congr 1
      · unfold stem
        rw [hy y List.mem_cons_self]
        rfl
      · apply List.map_congr_left
        intro j _
        simp only [Function.comp]
        rw [show k + 1 + j = k + (j + 1) by omega]
  rw [key ys 0 hy]
  simp

/-! ### A case -/

/-- Numbers and lists are shown in unary and by their first entry; nothing is expanded. -/
def plain : Env := ⟨fun z => List.replicate z.toNat '1', fun l => l.headD [], id⟩

def box (tag : Option String) (bad : Bool) (n : Nat) : Cont Nat :=
  ⟨fun a => if a = "tag".toList then tag.map fun t => .str t.toList else none, bad, n⟩

/-- Gives what is in the list, one after the other. -/
def replay : User Nat (List (Out Nat)) :=
  ⟨fun t _ => match t with
    | [] => .error .stop
    | o :: l => .ok (l, o), none⟩

def filesOf (r : Except PyErr (List (Ret Nat) × St Nat (List (Out Nat)))) : Option (List Str) :=
  match r with
  | .ok (_, s) => some (savedFiles s.trace)
  | .error _ => none

/-- Without inputs and without tags: the files are numbered. -/
example : filesOf (calls plain (standard "out_".toList "T".toList false) replay
    ⟨[.one (.cont (box none false 5)), .one (.cont (box none false 6))], 0, []⟩ [[], []]) =
    some ["out_.h5".toList, "out_1.h5".toList] := by decide

/-- A task without input is called without any, and refuses one. -/
example : (∀ s, next plain (standard [] [] true) replay s [.cont (box none false 1)] = .error .runtimeError) ∧
    next plain (standard [] [] true) replay ⟨[.none], 3, []⟩ [] = .ok (.none, ⟨[], 3, []⟩) :=
  ⟨fun s => (C69_inputs plain (standard [] [] true) replay s [.cont (box none false 1)]).1 rfl (by simp),
    ((C69_inputs plain (standard [] [] true) replay ⟨[.none], 3, []⟩ []).2 (.inr rfl)).2 [] rfl⟩

/-- With tags: the tag of the input, and of the output itself. An output with NaNs is not saved. -/
example : filesOf (calls plain (standard "out_".toList "T".toList false) replay
    ⟨[.one (.cont (box none false 5)), .one (.cont (box none true 5)), .one (.cont (box (some "y") false 6))], 0, []⟩
    [[.cont (box (some "a") false 1)], [.cont (box (some "b") false 1)], [.cont (box (some "c") false 1)]]) =
    some ["out_a.h5".toList, "out_y.h5".toList] := by decide

/-- Attributes of the output with the number given. -/
def attrOf (r : Except PyErr (Ret Nat × St Nat (List (Out Nat)))) (k : Nat) (a : String) : Option AVal :=
  match r with
  | .ok (.one (some x), _) => if k = 0 then x.attrs a.toList else none
  | .ok (.many l, _) => match l[k]? with
    | some (some x) => x.attrs a.toList
    | _ => none
  | _ => none

/-- A call with two outputs, of which the second is saved, with a tag and an attribute that are formatted. -/
def twoOut : Except PyErr (Ret Nat × St Nat (List (Out Nat))) :=
  next plain { standard "out_".toList "T".toList false with
      tag := [.lit "x".toList, .field "tag".toList]
      attrs := [("was".toList, .fmt [.field "tag".toList, .field "key".toList]), ("n".toList, .val (.num 3))]
      save := .list [false, true]
      outputName := .one [.field "was".toList, .lit "-".toList, .field "tag".toList]
      outKeys := some ["p".toList, "q".toList] }
    replay ⟨[.many [.cont (box none false 5), .cont (box (some "b") false 6)]], 4, []⟩ [.cont (box (some "a") false 1), .other]

example : [attrOf twoOut 0 "tag", attrOf twoOut 0 "was", attrOf twoOut 1 "tag", attrOf twoOut 1 "was", attrOf twoOut 1 "n",
    attrOf twoOut 1 "input_tags"] = [some (.str "xa".toList), some (.str "ap".toList), some (.str "xb".toList),
      some (.str "bq".toList), some (.num 3), some (.strs ["a".toList, []])] := by decide

example : (match twoOut with
  | .ok (_, s) => savedFiles s.trace
  | .error _ => []) = ["bq-xb".toList] := by decide

/-- The hypotheses of `C69_distinct_partial` can be met. -/
example : ∃ rets s, calls plain (standard [] [] false) replay
    ⟨[.one (.cont (box (some "a") false 5)), .one (.cont (box (some "b") false 6))], 0, []⟩ [[], []] = .ok (rets, s) ∧
    (savedFiles s.trace).Nodup := by
  obtain ⟨rets, s, h1, h2, -⟩ := C69_distinct_partial plain [] [] replay
    [.one (.cont (box (some "a") false 5)), .one (.cont (box (some "b") false 6))] [] [[], []]
    [box (some "a") false 5, box (some "b") false 6]
    (.cons _ _ _ _ _ _ _ rfl rfl (.cons _ _ _ _ _ _ _ rfl rfl (.nil _)))
    ["a".toList, "b".toList] rfl (by decide) (fun _ _ h => h)
  exact ⟨rets, s, h1, h2⟩

/-! ### Where the property fails -/

/-- C69: if the inputs have no tag, the tag of every output is `"None"` and not its number; the outputs are all
written to the same file, so that only the last one is left. -/
theorem C69_untagged_violated :
    filesOf (calls plain (standard "out_".toList "T".toList false) replay
      ⟨[.one (.cont (box none false 5)), .one (.cont (box none false 6))], 0, []⟩
      [[.cont (box none false 1)], [.cont (box none false 2)]]) =
      some ["out_None.h5".toList, "out_None.h5".toList] := by decide

/-- C69: for an input that is not a container, the tag is empty. -/
theorem C69_no_container_violated :
    filesOf (calls plain (standard "out_".toList "T".toList false) replay
      ⟨[.one (.cont (box none false 5)), .one (.cont (box none false 6))], 0, []⟩ [[.other], [.other]]) =
      some ["out_.h5".toList, "out_.h5".toList] := by decide

/-- C69: the outputs of one call are written to the same file, the second over the first. -/
theorem C69_tuple_violated :
    filesOf (calls plain (standard "out_".toList "T".toList false) replay
      ⟨[.many [.cont (box none false 5), .cont (box none false 6)]], 0, []⟩ [[.cont (box (some "a") false 1)]]) =
      some ["out_a.h5".toList, "out_a.h5".toList] := by decide

/-- C69: `count` is not the number of the iteration: calls without an output are not counted. -/
theorem C69_count_violated :
    filesOf (calls plain (standard "out_".toList "T".toList false) replay
      ⟨[.one (.cont (box none false 5)), .none, .one (.cont (box none false 6))], 0, []⟩ [[], [], []]) =
      some ["out_.h5".toList, "out_1.h5".toList] := by decide

end Verif.Save
