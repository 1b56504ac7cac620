import Verif.Save.Spec

/-!
# Lemmas for outputs of container tasks
-/
namespace Verif.Save

variable {δ σ : Type}

theorem formats_of_format (E : Env) (d : Dict) (l : List Piece) (r : Str) (h : format E d l = .ok r) : Formats E d l r := by
  induction l generalizing r with
  | nil =>
    obtain rfl : [] = r := by simpa [format] using h
    exact .nil
  | cons p l ih =>
    cases p with
    | lit s =>
      unfold format at h
      cases hf : format E d l with
      | error e => rw [hf] at h; cases h
      | ok r' =>
        rw [hf] at h
        obtain rfl : s ++ r' = r := by simpa using h
        exact .lit _ _ _ (ih _ hf)
    | field n =>
      unfold format at h
      cases hd : d n with
      | none => rw [hd] at h; cases h
      | some v =>
        rw [hd] at h
        cases hf : format E d l with
        | error e => rw [hf] at h; cases h
        | ok r' =>
          rw [hf] at h
          obtain rfl : E.show v ++ r' = r := by simpa using h
          exact .field _ _ _ _ hd (ih _ hf)

theorem format_of_formats (E : Env) (d : Dict) (l : List Piece) (r : Str) (h : Formats E d l r) : format E d l = .ok r := by
  induction h with
  | nil => rfl
  | lit s l r _ ih => unfold format; rw [ih]
  | field n v l r hd _ ih => unfold format; rw [hd, ih]


theorem tagOf_spec (count : Nat) (d : Dict) (v : AVal) (ht : TagsOk d) (h : tagOf count d = .ok v) : StartTag count d v := by
  unfold tagOf at h
  cases hd : d "tag".toList with
  | some w =>
    rw [hd] at h
    obtain rfl : w = v := by simpa using h
    exact .own _ hd
  | none =>
    rw [hd] at h
    rcases ht with hi | hi | ⟨l, hi⟩
    · exact absurd hd hi
    · rw [hi] at h
      obtain rfl : AVal.num count = v := by simpa using h
      exact .count hd (.inl hi)
    · rw [hi] at h
      cases l with
      | nil =>
        obtain rfl : AVal.num count = v := by simpa using h
        exact .count hd (.inr hi)
      | cons t l =>
        obtain rfl : AVal.str t = v := by simpa using h
        exact .input t l hd hi

theorem keyOf_spec (c : Cfg) (ii : Nat) (k : Str) (h : keyOf c ii = .ok k) : HasKey c.outKeys ii k := by
  unfold keyOf at h
  cases hk : c.outKeys with
  | none =>
    rw [hk] at h
    obtain rfl : [] = k := by simpa using h
    exact .unnamed (.inl rfl)
  | some l =>
    rw [hk] at h
    cases l with
    | nil =>
      obtain rfl : [] = k := by simpa using h
      exact .unnamed (.inr rfl)
    | cons a l =>
      simp only at h
      cases hg : (a :: l)[ii]? with
      | none => rw [hg] at h; cases h
      | some k' =>
        rw [hg] at h
        obtain rfl : k' = k := by simpa using h
        exact .named _ _ rfl hg

theorem at_spec {κ : Type} (p : OneOrList κ) (ii : Nat) (v : κ) (h : p.at ii = .ok v) : Chosen ii p v := by
  unfold OneOrList.at at h
  cases p with
  | one w =>
    obtain rfl : w = v := by simpa using h
    exact .one _
  | list l =>
    simp only at h
    cases hg : l[ii]? with
    | none => rw [hg] at h; cases h
    | some w =>
      rw [hg] at h
      obtain rfl : w = v := by simpa using h
      exact .list _ _ hg

theorem interp_spec (c : Cfg) (count : Nat) (d d' : Dict) (ii : Nat) (ht : TagsOk d) (h : interp c count d ii = .ok d') :
    ∃ v k, StartTag count d v ∧ HasKey c.outKeys ii k ∧ tagOf count d = .ok v ∧ keyOf c ii = .ok k ∧ d' = fields c count v k d := by
  unfold interp at h
  cases h1 : tagOf count d with
  | error e => rw [h1] at h; cases h
  | ok v =>
    rw [h1] at h
    simp only at h
    cases h2 : keyOf c ii with
    | error e => rw [h2] at h; cases h
    | ok k =>
      rw [h2] at h
      refine ⟨v, k, tagOf_spec _ _ _ ht h1, keyOf_spec _ _ _ h2, rfl, rfl, ?_⟩
      have h := Except.ok.inj h
      rw [← h]
      funext n
      unfold fields Dict.put
      by_cases e1 : n = "output_root".toList
      · subst e1
        rw [if_pos rfl]
        rfl
      · rw [if_neg e1]
        by_cases e2 : n = "key".toList
        · subst e2
          rw [if_pos rfl]
          rfl
        · rw [if_neg e2]
          by_cases e3 : n = "task".toList
          · subst e3
            rw [if_pos rfl]
            rfl
          · rw [if_neg e3]
            by_cases e4 : n = "count".toList
            · subst e4
              rw [if_pos rfl]
              rfl
            · rw [if_neg e4]
              by_cases e5 : n = "tag".toList
              · subst e5
                rw [if_pos rfl, if_pos rfl]
              · rw [if_neg e5, if_neg e5, if_neg e4, if_neg e3, if_neg e2, if_neg e1]

/-- What setting the attributes does to each. -/
theorem setAttrs_spec (E : Env) (idict : Dict) (l : List (Str × CVal)) (hn : (l.map (·.1)).Nodup) (d d' : Dict)
    (h : setAttrs E idict d l = .ok d') :
    (∀ a v, (a, CVal.val v) ∈ l → d' a = some v) ∧
    (∀ a p, (a, CVal.fmt p) ∈ l → ∃ s, Formats E idict p s ∧ d' a = some (.str s)) ∧
    (∀ a, (∀ v, (a, v) ∉ l) → d' a = d a) := by
  induction l generalizing d with
  | nil =>
    obtain rfl : d = d' := by simpa [setAttrs] using h
    exact ⟨by simp, by simp, by simp⟩
  | cons nv l ih =>
    obtain ⟨n, w⟩ := nv
    rw [List.map_cons, List.nodup_cons] at hn
    have hnot : ∀ v, (n, v) ∉ l := fun v hv => hn.1 (List.mem_map.2 ⟨_, hv, rfl⟩)
    unfold setAttrs at h
    cases h1 : setAttr E idict d (n, w) with
    | error e => rw [h1] at h; cases h
    | ok d1 =>
      rw [h1] at h
      obtain ⟨g1, g2, g3⟩ := ih hn.2 d1 h
      unfold setAttr at h1
      refine ⟨?_, ?_, ?_⟩
      · intro a v hm
        rcases List.mem_cons.1 hm with e | e
        · obtain ⟨rfl, rfl⟩ := Prod.mk.inj e
          rw [g3 _ hnot]
          have h1 := Except.ok.inj h1
          rw [← h1]
          exact if_pos rfl
        · exact g1 a v e
      · intro a p hm
        rcases List.mem_cons.1 hm with e | e
        · obtain ⟨rfl, rfl⟩ := Prod.mk.inj e
          simp only at h1
          cases hf : format E idict p with
          | error e => rw [hf] at h1; cases h1
          | ok s =>
            rw [hf] at h1
            refine ⟨s, formats_of_format _ _ _ _ hf, ?_⟩
            rw [g3 _ hnot]
            have h1 := Except.ok.inj h1
            rw [← h1]
            exact if_pos rfl
        · exact g2 a p e
      · intro a ha
        rw [g3 a fun v hv => ha v (List.mem_cons_of_mem _ hv)]
        have hne : a ≠ n := by
          rintro rfl
          exact ha w List.mem_cons_self
        cases w with
        | val v =>
          have h1 := Except.ok.inj h1
          rw [← h1]
          exact if_neg hne
        | fmt p =>
          simp only at h1
          cases hf : format E idict p with
          | error e => rw [hf] at h1; cases h1
          | ok s =>
            rw [hf] at h1
            have h1 := Except.ok.inj h1
            rw [← h1]
            exact if_neg hne

theorem attrsToSet_keys (c : Cfg) (hn : (c.attrs.map (·.1)).Nodup) : ((attrsToSet c).map (·.1)).Nodup := by
  unfold attrsToSet
  split
  · rw [List.map_map]
    have : ((fun x : Str × CVal => x.1) ∘ fun nv : Str × CVal => if nv.1 == "tag".toList then (nv.1, CVal.fmt c.tag) else nv) =
        fun x => x.1 := by
      funext nv
      simp only [Function.comp]
      split <;> rfl
    rw [this]
    exact hn
  · rename_i h
    rw [List.map_append, List.nodup_append]
    refine ⟨hn, by simp, ?_⟩
    intro a ha b hb e
    subst e
    simp only [List.map_cons, List.map_nil, List.mem_singleton] at hb
    subst hb
    obtain ⟨x, hx, hxe⟩ := List.mem_map.1 ha
    apply h
    rw [List.any_eq_true]
    exact ⟨x, hx, by rw [hxe]; exact beq_self_eq_true _⟩

theorem attrsToSet_tag (c : Cfg) : ("tag".toList, CVal.fmt c.tag) ∈ attrsToSet c := by
  unfold attrsToSet
  split
  · rename_i h
    rw [List.any_eq_true] at h
    obtain ⟨x, hx, hxe⟩ := h
    rw [List.mem_map]
    refine ⟨x, hx, ?_⟩
    rw [if_pos hxe]
    rw [eq_of_beq hxe]
  · simp

theorem attrsToSet_mem (c : Cfg) (a : Str) (v : CVal) (ha : a ≠ "tag".toList) : (a, v) ∈ attrsToSet c ↔ (a, v) ∈ c.attrs := by
  unfold attrsToSet
  split
  · rw [List.mem_map]
    constructor
    · rintro ⟨x, hx, he⟩
      split at he
      · rename_i hb
        have := (Prod.mk.inj he).1
        exact absurd (this ▸ eq_of_beq hb) ha
      · rw [← he]; exact hx
    · intro h
      refine ⟨_, h, ?_⟩
      rw [if_neg]
      intro hb
      exact ha (eq_of_beq hb)
  · rw [List.mem_append, List.mem_singleton]
    constructor
    · rintro (h | h)
      · exact h
      · exact absurd (Prod.mk.inj h).1 ha
    · exact .inl

theorem processOutput_spec (E : Env) (c : Cfg) (hn : (c.attrs.map (·.1)).Nodup)
    (count ii : Nat) (x : Cont δ) (ht : TagsOk x.attrs) (ret : Option (Cont δ)) (evs : List (Ev δ))
    (h : processOutput E c count ii (.cont x) = .ok (ret, evs)) : Handled E c count ii x ret evs := by
  unfold processOutput at h
  simp only at h
  cases h1 : interp c count x.attrs ii with
  | error e => rw [h1] at h; cases h
  | ok idict =>
    rw [h1] at h
    simp only at h
    cases h2 : setAttrs E idict x.attrs (attrsToSet c) with
    | error e => rw [h2] at h; cases h
    | ok attrs =>
      rw [h2] at h
      simp only at h
      obtain ⟨v, k, hv, hk, htag, hkey, rfl⟩ := interp_spec c count x.attrs idict ii ht h1
      obtain ⟨g1, g2, g3⟩ := setAttrs_spec E _ _ (attrsToSet_keys c hn) _ _ h2
      obtain ⟨tag, ht1, ht2⟩ := g2 _ _ (attrsToSet_tag c)
      have hok : TagsOk attrs := .inl (by rw [ht2]; simp)
      have hdump : (nanOutput E c count { x with attrs := attrs }).2 =
          if c.nanCheck = true ∧ x.bad = true ∧ c.nanDump = true then
            [.dump ("nandump_".toList ++ c.task ++ "_".toList ++ tag ++ ".h5".toList) { x with attrs := attrs }] else [] := by
        unfold nanOutput
        simp only [ht2, Env.show]
        cases c.nanCheck <;> cases x.bad <;> cases c.nanDump <;> rfl
      have hret : (nanOutput E c count { x with attrs := attrs }).1 =
          if c.nanCheck = true ∧ x.bad = true ∧ c.nanSkip = true then none else some { x with attrs := attrs } := by
        unfold nanOutput
        cases c.nanCheck <;> cases x.bad <;> cases c.nanSkip <;> rfl
      have base : ∀ saves, (if c.nanCheck = true ∧ x.bad = true ∧ c.nanSkip = true then saves = [] else
          ∃ save, Chosen ii c.save save ∧
            if save = true then ∃ name file, Chosen ii c.outputName name ∧
              Formats E (fields c count (.str tag) k attrs) name file ∧ saves = [.save (E.expand file) { x with attrs := attrs }]
            else saves = []) →
          Handled E c count ii x (nanOutput E c count { x with attrs := attrs }).1
            ((nanOutput E c count { x with attrs := attrs }).2 ++ saves) := by
        intro saves hs
        refine ⟨v, k, tag, { x with attrs := attrs }, _, saves, hv, hk, ht1, rfl, rfl, ht2, ?_, ?_, ?_, hret, rfl, hdump, hs⟩
        · intro a w hm ha
          exact g1 a w ((attrsToSet_mem c a _ ha).2 hm)
        · intro a l hm ha
          exact g2 a l ((attrsToSet_mem c a _ ha).2 hm)
        · intro a ha hm
          exact g3 a fun w hw => hm w ((attrsToSet_mem c a w ha).1 hw)
      cases hno : nanOutput E c count { x with attrs := attrs } with
      | mk r evs0 =>
        rw [hno] at h base hret
        cases r with
        | none =>
          have hc : c.nanCheck = true ∧ x.bad = true ∧ c.nanSkip = true := by
            by_cases hc : c.nanCheck = true ∧ x.bad = true ∧ c.nanSkip = true
            · exact hc
            · rw [if_neg hc] at hret; cases hret
          simp only [Except.ok.injEq, Prod.mk.injEq] at h
          have := base [] (by rw [if_pos hc])
          rw [← h.1, ← h.2]
          simpa using this
        | some y =>
          have hc : ¬ (c.nanCheck = true ∧ x.bad = true ∧ c.nanSkip = true) := by
            intro hc
            rw [if_pos hc] at hret; cases hret
          rw [if_neg hc] at hret
          obtain rfl : y = { x with attrs := attrs } := Option.some.inj hret
          simp only at h
          cases hsv : saveOutput E c count ii ({ x with attrs := attrs } : Cont δ) with
          | error e => rw [hsv] at h; cases h
          | ok evs' =>
            rw [hsv] at h
            simp only [Except.ok.injEq, Prod.mk.injEq] at h
            rw [← h.1, ← h.2]
            apply base
            rw [if_neg hc]
            unfold saveOutput at hsv
            cases ha : c.save.at ii with
            | error e => rw [ha] at hsv; cases hsv
            | ok b =>
              rw [ha] at hsv
              refine ⟨b, at_spec _ _ _ ha, ?_⟩
              cases b with
              | false =>
                simp only [Except.ok.injEq] at hsv
                simp [← hsv]
              | true =>
                rw [if_pos rfl]
                simp only at hsv
                cases hi2 : interp c count attrs ii with
                | error e => rw [hi2] at hsv; cases hsv
                | ok d =>
                  rw [hi2] at hsv
                  simp only at hsv
                  obtain ⟨v2, k2, -, -, q3, q4, rfl⟩ := interp_spec c count attrs d ii hok hi2
                  have hk2 : k2 = k := by
                    rw [hkey] at q4
                    exact (Except.ok.inj q4).symm
                  have hv2 : v2 = .str tag := by
                    unfold tagOf at q3
                    rw [ht2] at q3
                    exact (Except.ok.inj q3).symm
                  subst hk2 hv2
                  have hroot : (if c.outputRoot ≠ [] then
                      Dict.put (fields c count (.str tag) k2 attrs) "output_root".toList (.str c.outputRoot)
                      else fields c count (.str tag) k2 attrs) = fields c count (.str tag) k2 attrs := by
                    split
                    · funext n
                      unfold Dict.put
                      by_cases e : n = "output_root".toList
                      · subst e
                        rw [if_pos rfl]
                        rfl
                      · rw [if_neg e]
                    · rfl
                  rw [hroot] at hsv
                  cases hnm : c.outputName.at ii with
                  | error e => rw [hnm] at hsv; cases hsv
                  | ok name =>
                    rw [hnm] at hsv
                    simp only at hsv
                    cases hf : format E (fields c count (.str tag) k2 attrs) name with
                    | error e => rw [hf] at hsv; cases hsv
                    | ok f =>
                      rw [hf] at hsv
                      simp only [Except.ok.injEq] at hsv
                      exact ⟨name, f, at_spec _ _ _ hnm, formats_of_format _ _ _ _ hf, hsv.symm⟩

/-- The outputs one after the other. -/
theorem processOutputs_spec (E : Env) (c : Cfg) (hn : (c.attrs.map (·.1)).Nodup)
    (count : Nat) (l : List (Item δ)) (ht : ∀ x, Item.cont x ∈ l → TagsOk x.attrs) (ii : Nat) (rets : List (Option (Cont δ)))
    (evs : List (Ev δ)) (h : processOutputs E c count ii l = .ok (rets, evs)) :
    ∃ (xs : List (Cont δ)) (evss : List (List (Ev δ))), l = xs.map .cont ∧ rets.length = xs.length ∧ evss.length = xs.length ∧
      evs = evss.flatten ∧ ∀ (k : Nat) x, xs[k]? = some x →
        ∃ r e, rets[k]? = some r ∧ evss[k]? = some e ∧ Handled E c count (ii + k) x r e := by
  induction l generalizing ii rets evs with
  | nil =>
    simp only [processOutputs, Except.ok.injEq, Prod.mk.injEq] at h
    obtain ⟨rfl, rfl⟩ := h
    exact ⟨[], [], rfl, rfl, rfl, rfl, by simp⟩
  | cons i l ih =>
    unfold processOutputs at h
    cases h1 : processOutput E c count ii i with
    | error e => rw [h1] at h; cases h
    | ok r =>
      obtain ⟨y, e1⟩ := r
      rw [h1] at h
      simp only at h
      cases h2 : processOutputs E c count (ii + 1) l with
      | error e => rw [h2] at h; cases h
      | ok r =>
        obtain ⟨ys, e2⟩ := r
        rw [h2] at h
        simp only [Except.ok.injEq, Prod.mk.injEq] at h
        obtain ⟨rfl, rfl⟩ := h
        obtain ⟨xs, evss, q1, q2, q3, q4, q5⟩ := ih (fun x hx => ht x (List.mem_cons_of_mem _ hx)) (ii + 1) ys e2 h2
        cases i with
        | other => unfold processOutput at h1; cases h1
        | cont x =>
          have hh := processOutput_spec E c hn count ii x (ht x List.mem_cons_self) y e1 h1
          refine ⟨x :: xs, e1 :: evss, by rw [q1]; rfl, by simp [q2], by simp [q3], by rw [q4]; rfl, ?_⟩
          intro k z hk
          cases k with
          | zero =>
            obtain rfl : x = z := by simpa using hk
            exact ⟨y, e1, rfl, rfl, hh⟩
          | succ k =>
            obtain ⟨r, e, w1, w2, w3⟩ := q5 k z (by simpa using hk)
            exact ⟨r, e, by simpa using w1, by simpa using w2, by rw [show ii + (k + 1) = ii + 1 + k by omega]; exact w3⟩

theorem putTagsAll_spec (tags : List Str) (l l' : List (Item δ)) (h : putTagsAll tags l = .ok l') :
    ∃ xs : List (Cont δ), l = xs.map .cont ∧ l' = (xs.map (withTags tags)).map .cont := by
  induction l generalizing l' with
  | nil =>
    simp only [putTagsAll, Except.ok.injEq] at h
    exact ⟨[], rfl, h.symm⟩
  | cons i l ih =>
    unfold putTagsAll at h
    cases i with
    | other => cases h
    | cont x =>
      simp only [putTags] at h
      cases h2 : putTagsAll tags l with
      | error e => rw [h2] at h; cases h
      | ok r =>
        rw [h2] at h
        simp only [Except.ok.injEq] at h
        obtain ⟨xs, q1, q2⟩ := ih r h2
        exact ⟨x :: xs, by rw [q1]; rfl, by rw [← h, q2]; rfl⟩

theorem wrap_spec (l : List (Option (Cont δ))) (r : Ret δ) (h : wrap l = .ok r) : Gives r l := by
  match l with
  | [] => cases h
  | [x] =>
    obtain rfl : Ret.one x = r := by simpa [wrap] using h
    exact .one x
  | x :: y :: l =>
    obtain rfl : Ret.many (x :: y :: l) = r := by simpa [wrap] using h
    exact .many _ (by simp)

end Verif.Save
