import Verif.Mem.Spec

namespace Verif.Mem
variable {V δ : Type}

/-! ## Path strings -/

theorem splitSlash_ne_nil (s : Str) : splitSlash s ≠ [] := by
  cases s with
  | nil => simp [splitSlash]
  | cons c cs =>
    unfold splitSlash
    split
    · simp
    · split <;> simp

theorem splitSlash_plain (s : Str) (h : '/' ∉ s) : splitSlash s = [s] := by
  induction s with
  | nil => rfl
  | cons c cs ih =>
    unfold splitSlash
    rw [if_neg (by intro e; exact h (by simp [e])), ih (fun hm => h (List.mem_cons_of_mem _ hm))]

theorem splitSlash_append (a b : Str) : splitSlash (a ++ '/' :: b) = splitSlash a ++ splitSlash b := by
  induction a with
  | nil => simp [splitSlash]
  | cons c cs ih =>
    rw [List.cons_append]
    by_cases hc : c = '/'
    · simp only [splitSlash, hc, if_true, ih, List.cons_append]
    · simp only [splitSlash, hc, if_false, ih]
      cases h : splitSlash cs with
      | nil => exact absurd h (splitSlash_ne_nil _)
      | cons x xs => simp

theorem splitSlash_mem (s x : Str) (hx : x ∈ splitSlash s) : '/' ∉ x := by
  induction s generalizing x with
  | nil => simp [splitSlash] at hx; simp [hx]
  | cons c cs ih =>
    unfold splitSlash at hx
    by_cases hc : c = '/'
    · rw [if_pos hc] at hx
      rcases List.mem_cons.1 hx with rfl | hx
      · simp
      · exact ih x hx
    · rw [if_neg hc] at hx
      cases h : splitSlash cs with
      | nil => exact absurd h (splitSlash_ne_nil _)
      | cons y ys =>
        rw [h] at hx
        simp only at hx
        rcases List.mem_cons.1 hx with rfl | hx
        · intro hm
          rcases List.mem_cons.1 hm with hm | hm
          · exact hc hm.symm
          · exact ih y (by rw [h]; simp) hm
        · exact ih x (by rw [h]; simp [hx])

/-- A path part. -/
def Part (p : Str) : Prop := p ≠ [] ∧ '/' ∉ p

theorem parts_mem (s x : Str) (hx : x ∈ parts s) : Part x := by
  unfold parts at hx
  rw [List.mem_filter] at hx
  exact ⟨by simpa using hx.2, splitSlash_mem s x hx.1⟩

theorem parts_append (a b : Str) : parts (a ++ '/' :: b) = parts a ++ parts b := by
  unfold parts
  rw [splitSlash_append, List.filter_append]

theorem parts_nil : parts [] = [] := rfl

theorem parts_slash (b : Str) : parts ('/' :: b) = parts b := by
  have := parts_append [] b
  simpa [parts_nil] using this

theorem parts_part (p : Str) (h : Part p) : parts p = [p] := by
  unfold parts
  rw [splitSlash_plain p h.2]
  simp [h.1]

theorem parts_trailing (a : Str) : parts (a ++ ['/']) = parts a := by
  rw [parts_append, parts_nil, List.append_nil]

theorem getLast_slash (a : Str) (h : a.getLast? = some '/') : ∃ a', a = a' ++ ['/'] := by
  have hne : a ≠ [] := by rintro rfl; simp at h
  refine ⟨a.dropLast, ?_⟩
  rw [List.getLast?_eq_some_getLast hne] at h
  conv => lhs; rw [← List.dropLast_concat_getLast hne]
  rw [Option.some.inj h]

theorem parts_join (a b : Str) :
    parts (joinPath a b) = if isAbs b then parts b else parts a ++ parts b := by
  unfold joinPath
  split
  · rfl
  · split
    · rename_i h
      rcases h with rfl | h
      · simp [parts_nil]
      · obtain ⟨a', rfl⟩ := getLast_slash a h
        rw [parts_trailing, List.append_assoc]
        exact parts_append a' b
    · exact parts_append a b

theorem isAbs_join (a b : Str) (h : isAbs a = true) : isAbs (joinPath a b) = true := by
  unfold joinPath
  split
  · assumption
  · cases a with
    | nil => simp [isAbs] at h
    | cons c cs => split <;> simpa [isAbs] using h

theorem components_eq (g n : Str) : parts (joinPath g n) = components g n := by
  rw [parts_join]
  unfold components isAbs
  by_cases h : n.head? = some '/'
  · simp [h]
  · rw [if_neg h, if_neg (by simpa using h)]

/-- The string of a list of parts. -/
def render (ps : List Str) : Str := if ps = [] then ['/'] else ps.flatMap fun p => '/' :: p

theorem foldl_join (acc : Str) (h1 : acc ≠ []) (h2 : acc.getLast? ≠ some '/') (ps : List Str)
    (hp : ∀ p ∈ ps, Part p) : ps.foldl joinPath acc = acc ++ ps.flatMap fun p => '/' :: p := by
  induction ps generalizing acc with
  | nil => simp
  | cons p ps ih =>
    have hpp := hp p (by simp)
    have habs : isAbs p = false := by
      cases p with
      | nil => rfl
      | cons c cs =>
        have : c ≠ '/' := by rintro rfl; exact hpp.2 (by simp)
        simp [isAbs, this]
    have hj : joinPath acc p = acc ++ '/' :: p := by
      unfold joinPath
      rw [habs]
      simp [h1, h2]
    rw [List.foldl_cons, hj, ih _ (by simp) _ (fun q hq => hp q (List.mem_cons_of_mem _ hq))]
    · simp
    · rw [List.getLast?_append, List.getLast?_cons]
      obtain ⟨hne, hs⟩ := hpp
      rw [List.getLast?_eq_some_getLast hne]
      simp only [Option.getD_some, Option.some_or]
      intro e
      exact hs (Option.some.inj e ▸ List.getLast_mem hne)

theorem foldl_render (ps : List Str) (hp : ∀ p ∈ ps, Part p) :
    ps.foldl joinPath ['/'] = render ps := by
  cases ps with
  | nil => rfl
  | cons p ps =>
    have hpp := hp p (by simp)
    have habs : isAbs p = false := by
      cases p with
      | nil => rfl
      | cons c cs =>
        have : c ≠ '/' := by rintro rfl; exact hpp.2 (by simp)
        simp [isAbs, this]
    have hj : joinPath ['/'] p = '/' :: p := by simp [joinPath, habs]
    rw [List.foldl_cons, hj, foldl_join _ (by simp) _ ps (fun q hq => hp q (List.mem_cons_of_mem _ hq))]
    · simp [render]
    · rw [List.getLast?_cons, List.getLast?_eq_some_getLast hpp.1]
      intro e
      exact hpp.2 (Option.some.inj e ▸ List.getLast_mem hpp.1)

theorem formatAbs_ok (p : Str) (h : isAbs p = true) : formatAbs p = .ok (render (parts p)) := by
  unfold formatAbs
  rw [if_pos h, foldl_render _ (fun q hq => parts_mem p q hq)]

theorem splitSlash_render (ps : List Str) (hne : ps ≠ []) (hp : ∀ p ∈ ps, Part p) :
    splitSlash (render ps) = [] :: ps := by
  unfold render
  rw [if_neg hne]
  clear hne
  have : ∀ (ps : List Str), ps ≠ [] → (∀ p ∈ ps, Part p) →
      splitSlash (ps.flatMap fun p => '/' :: p) = [] :: ps := by
    intro ps
    induction ps with
    | nil => intro h; exact absurd rfl h
    | cons p ps ih =>
      intro _ hp
      have hpp := hp p (by simp)
      rw [List.flatMap_cons, List.cons_append, splitSlash, if_pos rfl]
      cases ps with
      | nil => simp [splitSlash_plain p hpp.2]
      | cons q qs =>
        have ih' := ih (by simp) (fun x hx => hp x (List.mem_cons_of_mem _ hx))
        rw [List.flatMap_cons, List.cons_append, splitSlash, if_pos rfl] at ih'
        rw [List.flatMap_cons, List.cons_append, splitSlash_append, splitSlash_plain p hpp.2,
          List.cons.inj ih' |>.2]
        rfl
  cases ps with
  | nil => rfl
  | cons p ps => exact this _ (by simp) hp

theorem parts_render (ps : List Str) (hp : ∀ p ∈ ps, Part p) : parts (render ps) = ps := by
  by_cases hne : ps = []
  · subst hne; rfl
  · unfold parts
    rw [splitSlash_render ps hne hp, List.filter_cons_of_neg (by simp), List.filter_eq_self]
    intro a ha
    simpa using (hp a ha).1

theorem isAbs_render (ps : List Str) : isAbs (render ps) = true := by
  unfold render
  split
  · rfl
  · cases ps with
    | nil => contradiction
    | cons p ps => simp [isAbs]

theorem slash_mem_of_isAbs (p : Str) (h : isAbs p = true) : '/' ∈ p := by
  cases p with
  | nil => simp [isAbs] at h
  | cons c cs =>
    have : c = '/' := by simpa [isAbs] using h
    simp [this]

/-- A lookup crawls the parts. -/
theorem rootGet_eq (fields : δ → List Str → Option FieldErr) (root : Node V δ) (p : Str)
    (h : isAbs p = true) : rootGet fields root p = crawl fields (.node root) (parts p) := by
  unfold rootGet
  rw [if_neg (by simpa using slash_mem_of_isAbs p h), formatAbs_ok p h]
  simp only
  by_cases hne : parts p = []
  · rw [hne]; rfl
  · have hr := splitSlash_render (parts p) hne (fun q hq => parts_mem p q hq)
    rw [if_neg, hr, List.tail_cons]
    intro e
    rw [e] at hr
    have h2 := (List.cons.inj hr).2
    have h3 : ([] : Str) ∈ parts p := by rw [← h2]; simp [splitSlash]
    exact (parts_mem p [] h3).1 rfl

theorem getItem_eq (fields : δ → List Str → Option FieldErr) (root : Node V δ) (g n : Str)
    (h : isAbs g = true) :
    getItem fields root g n = crawl fields (.node root) (components g n) := by
  unfold getItem
  rw [formatAbs_ok _ (isAbs_join g n h)]
  simp only
  rw [rootGet_eq _ _ _ (isAbs_render _), parts_render _ (fun q hq => parts_mem _ q hq), components_eq]

theorem see_eq (fields : δ → List Str → Option FieldErr) (root : Node V δ) (g n : Str)
    (h : isAbs g = true) :
    see fields root g n = (crawl fields (.node root) (components g n)).map Obj.info := by
  unfold see
  rw [getItem_eq fields root g n h]

theorem components_mem (g n x : Str) (h : x ∈ components g n) : Part x := by
  rw [← components_eq] at h
  exact parts_mem _ x h

theorem sameSlashes_parts {p q : Str} (h : SameSlashes p q) :
    parts p = parts q ∧ isAbs p = isAbs q := by
  induction h with
  | refl p => exact ⟨rfl, rfl⟩
  | symm _ ih => exact ⟨ih.1.symm, ih.2.symm⟩
  | trans _ _ ih1 ih2 => exact ⟨ih1.1.trans ih2.1, ih1.2.trans ih2.2⟩
  | double u v =>
    refine ⟨by rw [parts_append, parts_slash, parts_append], ?_⟩
    cases u <;> simp [isAbs]
  | trailing u hu =>
    refine ⟨parts_trailing u, ?_⟩
    cases u with
    | nil => exact absurd rfl hu
    | cons c cs => simp [isAbs]

theorem sameSlashes_components {p q g : Str} (h : SameSlashes p q) :
    components g p = components g q := by
  obtain ⟨h1, h2⟩ := sameSlashes_parts h
  rw [← components_eq, ← components_eq, parts_join, parts_join, h1, h2]

/-! ## Head and tail of a path -/

theorem head_tail (p : Str) : headOf p ++ tailOf p = p := by
  unfold headOf tailOf
  rw [← List.reverse_append, List.takeWhile_append_dropWhile, List.reverse_reverse]

theorem tailOf_no_slash (p : Str) : '/' ∉ tailOf p := by
  unfold tailOf
  intro h
  have := List.all_eq_true.1 (List.all_takeWhile (p := (· != '/')) (l := p.reverse)) _
    (List.mem_reverse.1 h)
  simp at this

theorem headOf_cases (p : Str) : headOf p = [] ∨ ∃ h, headOf p = h ++ ['/'] := by
  unfold headOf
  cases hd : p.reverse.dropWhile (· != '/') with
  | nil => exact .inl rfl
  | cons c cs =>
    right
    have : (c != '/') = false := by
      have := List.head_dropWhile_not (l := p.reverse) (· != '/') (by rw [hd]; simp)
      simpa [hd] using this
    have hc : c = '/' := by simpa using this
    exact ⟨cs.reverse, by simp [hc]⟩

theorem rstrip_parts (p : Str) : parts (rstrip p) = parts p := by
  have : ∀ r : Str, parts ((r.dropWhile (· == '/')).reverse) = parts r.reverse := by
    intro r
    induction r with
    | nil => rfl
    | cons c cs ih =>
      by_cases hc : c = '/'
      · subst hc
        rw [List.dropWhile_cons_of_pos (by simp), ih, List.reverse_cons, parts_trailing]
      · rw [List.dropWhile_cons_of_neg (by simpa using hc)]
  unfold rstrip
  rw [this, List.reverse_reverse]

theorem splitPath_parts (p : Str) : parts (splitPath p).1 = parts (headOf p) := by
  unfold splitPath
  simp only
  split
  · rfl
  · exact rstrip_parts _

theorem isAbs_head (p : Str) (h : isAbs p = true) : isAbs (headOf p) = true := by
  rcases headOf_cases p with h0 | ⟨q, hq⟩
  · have := head_tail p
    rw [h0, List.nil_append] at this
    exact absurd (slash_mem_of_isAbs p h) (by rw [← this]; exact tailOf_no_slash p)
  · have := head_tail p
    rw [hq, List.append_assoc] at this
    rw [hq]
    rw [← this] at h
    cases q with
    | nil => simp [isAbs]
    | cons c cs => simpa [isAbs] using h

theorem isAbs_rstrip (p : Str) (h : isAbs p = true) (hn : p.all (· == '/') = false) :
    isAbs (rstrip p) = true := by
  have hsplit : rstrip p ++ (p.reverse.takeWhile (· == '/')).reverse = p := by
    unfold rstrip
    rw [← List.reverse_append, List.takeWhile_append_dropWhile, List.reverse_reverse]
  cases hr : rstrip p with
  | nil =>
    rw [hr, List.nil_append] at hsplit
    exfalso
    have : p.all (· == '/') = true := by
      rw [List.all_eq_true]
      intro x hx
      rw [← hsplit] at hx
      exact List.all_eq_true.1 (List.all_takeWhile (p := (· == '/')) (l := p.reverse)) _
        (List.mem_reverse.1 hx)
    rw [this] at hn
    exact absurd hn (by simp)
  | cons c cs =>
    rw [hr] at hsplit
    rw [← hsplit] at h
    simpa [isAbs] using h

theorem isAbs_split (p : Str) (h : isAbs p = true) : isAbs (splitPath p).1 = true := by
  unfold splitPath
  simp only
  split
  · exact isAbs_head p h
  · rename_i hn
    exact isAbs_rstrip _ (isAbs_head p h) (by simpa using hn)

theorem splitPath_components (p : Str) (h : isAbs p = true) (ht : (splitPath p).2 ≠ []) :
    parts p = parts (splitPath p).1 ++ [(splitPath p).2] := by
  have hp := head_tail p
  have ht' : tailOf p ≠ [] := ht
  have hpart : Part (tailOf p) := ⟨ht', tailOf_no_slash p⟩
  rw [splitPath_parts]
  show parts p = parts (headOf p) ++ [tailOf p]
  rcases headOf_cases p with h0 | ⟨q, hq⟩
  · have := isAbs_head p h
    rw [h0] at this
    simp [isAbs] at this
  · rw [← parts_part _ hpart]
    conv => lhs; rw [← hp, hq]
    rw [hq, parts_trailing, List.append_assoc]
    exact parts_append q (tailOf p)

theorem tailOf_ne (p : Str) (h : PlainEnd p) : tailOf p ≠ [] := by
  obtain ⟨hne, hl⟩ := h
  intro ht
  have hp := head_tail p
  rw [ht, List.append_nil] at hp
  rcases headOf_cases p with h0 | ⟨q, hq⟩
  · exact hne (by rw [← hp, h0])
  · rw [hq] at hp
    rw [← hp] at hl
    simp at hl

theorem plainEnd_join (g n : Str) (h : PlainEnd n) : PlainEnd (joinPath g n) := by
  obtain ⟨h1, h2⟩ := h
  have hl := List.getLast?_eq_some_getLast h1
  unfold joinPath PlainEnd
  split
  · exact ⟨h1, h2⟩
  · split
    · refine ⟨by simp [h1], ?_⟩
      rw [List.getLast?_append, hl]
      rw [hl] at h2
      simpa using h2
    · refine ⟨by simp, ?_⟩
      rw [List.getLast?_append, List.getLast?_cons, hl]
      rw [hl] at h2
      simpa using h2

theorem split_join_components (g n : Str) (hg : isAbs g = true) (hn : PlainEnd n) :
    components g n = parts (splitPath (joinPath g n)).1 ++ [(splitPath (joinPath g n)).2] := by
  rw [← components_eq]
  exact splitPath_components _ (isAbs_join g n hg) (tailOf_ne _ (plainEnd_join g n hn))

/-! ## Trees -/

theorem lookup_setKid (k k' : Str) (n : Node V δ) (kids : List (Str × Node V δ)) :
    (setKid k n kids).lookup k' = if k' = k then some n else kids.lookup k' := by
  induction kids with
  | nil =>
    simp only [setKid, List.lookup]
    by_cases h : k' = k
    · subst h; simp
    · rw [beq_eq_false_iff_ne.2 h]; simp [h]
  | cons x xs ih =>
    obtain ⟨a, b⟩ := x
    simp only [setKid]
    by_cases ha : a = k
    · subst ha
      rw [if_pos rfl]
      simp only [List.lookup]
      by_cases h : k' = a
      · subst h; simp
      · rw [beq_eq_false_iff_ne.2 h]; simp [h]
    · rw [if_neg ha]
      simp only [List.lookup]
      by_cases h : k' = a
      · subst h; simp [ha]
      · rw [beq_eq_false_iff_ne.2 h]
        simp only
        exact ih

theorem lookup_filter_ne (k k' : Str) (kids : List (Str × Node V δ)) :
    (kids.filter fun x => x.1 ≠ k).lookup k' = if k' = k then none else kids.lookup k' := by
  induction kids with
  | nil => simp
  | cons x xs ih =>
    obtain ⟨a, b⟩ := x
    by_cases ha : a = k
    · subst ha
      rw [List.filter_cons_of_neg (by simp), ih]
      by_cases h : k' = a
      · simp [h]
      · rw [if_neg h, if_neg h, List.lookup_cons, beq_eq_false_iff_ne.2 h]
    · rw [List.filter_cons_of_pos (by simpa using ha), List.lookup_cons, ih, List.lookup_cons]
      by_cases h : k' = a
      · subst h; simp [ha]
      · rw [beq_eq_false_iff_ne.2 h]

section crawl
variable (fields : δ → List Str → Option FieldErr)

theorem crawl_group_cons (a : List (Str × V)) (kids : List (Str × Node V δ)) (k : Str)
    (ks : List Str) :
    crawl fields (.node (.group a kids)) (k :: ks) =
      match kids.lookup k with
      | some n => crawl fields (.node n) ks
      | none => .error .keyError := by
  rw [crawl, index]
  cases kids.lookup k <;> rfl

theorem crawl_append (o : Obj V δ) (xs ys : List Str) :
    crawl fields o (xs ++ ys) = (crawl fields o xs).bind fun o' => crawl fields o' ys := by
  induction xs generalizing o with
  | nil => rfl
  | cons x xs ih =>
    rw [List.cons_append, crawl, crawl]
    cases index fields o x with
    | ok o' => exact ih o'
    | error e => rfl

/-- Below a dataset there is never a `KeyError` and never a group. -/
theorem crawl_below (o : Obj V δ) (ho : o.isGroup = false) (ks : List Str) :
    crawl fields o ks ≠ .error .keyError ∧
      ∀ o', crawl fields o ks = .ok o' → o'.isGroup = false := by
  induction ks generalizing o with
  | nil => exact ⟨by simp [crawl], fun o' h => by rw [crawl] at h; rw [← Except.ok.inj h]; exact ho⟩
  | cons k ks ih =>
    have hfe : ∀ e : FieldErr, e.toErr ≠ .keyError := by intro e; cases e <;> simp [FieldErr.toErr]
    rw [crawl]
    match o, ho with
    | .node (.dset d), _ =>
      simp only [index]
      cases fields d [k] with
      | none => exact ih _ rfl
      | some e => exact ⟨by simp [hfe e], by simp⟩
    | .field d fs, _ =>
      simp only [index]
      cases fields d (fs ++ [k]) with
      | none => exact ih _ rfl
      | some e => exact ⟨by simp [hfe e], by simp⟩

/-- Inserting at a group: lookups. -/
theorem crawl_insert (c : Str) (n : Node V δ) (E : List Str) (root : Node V δ)
    (a : List (Str × V)) (kids : List (Str × Node V δ))
    (h : crawl fields (.node root) E = .ok (.node (.group a kids))) :
    (∀ Q, crawl fields (.node (insertAt c n E root)) (E ++ c :: Q) = crawl fields (.node n) Q) ∧
    (∀ Q, ¬ (E ++ [c]) <+: Q →
      (crawl fields (.node (insertAt c n E root)) Q).map Obj.info =
        (crawl fields (.node root) Q).map Obj.info) ∧
    (∀ Q, ¬ (E ++ [c]) <+: Q → ¬ Q <+: E →
      crawl fields (.node (insertAt c n E root)) Q = crawl fields (.node root) Q) ∧
    crawl fields (.node (insertAt c n E root)) E = .ok (.node (.group a (setKid c n kids))) := by
  induction E generalizing root with
  | nil =>
    rw [crawl] at h
    have hr : root = .group a kids := by injection h with h; injection h
    subst hr
    have hi : insertAt c n [] (.group a kids) = .group a (setKid c n kids) := rfl
    rw [hi]
    have key : ∀ k Q, ¬ [c] <+: (k :: Q) →
        crawl fields (.node (.group a (setKid c n kids))) (k :: Q) =
        crawl fields (.node (.group a kids)) (k :: Q) := by
      intro k Q hk
      have : k ≠ c := by
        rintro rfl
        exact hk ⟨Q, rfl⟩
      rw [crawl_group_cons, crawl_group_cons, lookup_setKid, if_neg this]
    refine ⟨?_, ?_, ?_, rfl⟩
    · intro Q
      rw [List.nil_append, crawl_group_cons, lookup_setKid, if_pos rfl]
    · intro Q hQ
      cases Q with
      | nil => rfl
      | cons k Q => rw [key k Q hQ]
    · intro Q hQ hne
      cases Q with
      | nil => exact absurd ⟨[], rfl⟩ hne
      | cons k Q => exact key k Q hQ
  | cons p E ih =>
    match root with
    | .dset d =>
      exfalso
      have := (crawl_below fields (Obj.node (.dset d : Node V δ)) rfl (p :: E)).2 _ h
      simp [Obj.isGroup] at this
    | .group a0 kids0 =>
      rw [crawl_group_cons] at h
      cases hl : kids0.lookup p with
      | none => rw [hl] at h; simp at h
      | some ch =>
        rw [hl] at h
        simp only at h
        obtain ⟨i1, i2, i3, i4⟩ := ih ch h
        have hi : insertAt c n (p :: E) (.group a0 kids0) =
            .group a0 (setKid p (insertAt c n E ch) kids0) := by
          rw [insertAt, hl]
        rw [hi]
        refine ⟨?_, ?_, ?_, ?_⟩
        · intro Q
          rw [List.cons_append, crawl_group_cons, lookup_setKid, if_pos rfl]
          exact i1 Q
        · intro Q hQ
          cases Q with
          | nil => rfl
          | cons k Q =>
            rw [crawl_group_cons, crawl_group_cons, lookup_setKid]
            by_cases hk : k = p
            · subst hk
              rw [if_pos rfl, hl]
              exact i2 Q (fun hp => hQ (by
                rw [List.cons_append]; exact List.cons_prefix_cons.2 ⟨rfl, hp⟩))
            · rw [if_neg hk]
        · intro Q hQ hne
          cases Q with
          | nil => exact absurd (List.nil_prefix) hne
          | cons k Q =>
            rw [crawl_group_cons, crawl_group_cons, lookup_setKid]
            by_cases hk : k = p
            · subst hk
              rw [if_pos rfl, hl]
              exact i3 Q (fun hp => hQ (by
                rw [List.cons_append]; exact List.cons_prefix_cons.2 ⟨rfl, hp⟩))
                (fun hp => hne (List.cons_prefix_cons.2 ⟨rfl, hp⟩))
            · rw [if_neg hk]
        · rw [crawl_group_cons, lookup_setKid, if_pos rfl]
          exact i4

/-- Deleting from a group: lookups. -/
theorem crawl_delete (c : Str) (E : List Str) (root : Node V δ)
    (a : List (Str × V)) (kids : List (Str × Node V δ))
    (h : crawl fields (.node root) E = .ok (.node (.group a kids))) :
    (∀ Q, crawl fields (.node (deleteAt c E root)) (E ++ c :: Q) = .error .keyError) ∧
    (∀ Q, ¬ (E ++ [c]) <+: Q →
      (crawl fields (.node (deleteAt c E root)) Q).map Obj.info =
        (crawl fields (.node root) Q).map Obj.info) := by
  induction E generalizing root with
  | nil =>
    rw [crawl] at h
    have hr : root = .group a kids := by injection h with h; injection h
    subst hr
    have hi : deleteAt c [] (.group a kids) = .group a (kids.filter fun x => x.1 ≠ c) := rfl
    rw [hi]
    refine ⟨?_, ?_⟩
    · intro Q
      rw [List.nil_append, crawl_group_cons, lookup_filter_ne, if_pos rfl]
    · intro Q hQ
      cases Q with
      | nil => rfl
      | cons k Q =>
        have : k ≠ c := by
          rintro rfl
          exact hQ ⟨Q, rfl⟩
        rw [crawl_group_cons, crawl_group_cons, lookup_filter_ne, if_neg this]
  | cons p E ih =>
    match root with
    | .dset d =>
      exfalso
      have := (crawl_below fields (Obj.node (.dset d : Node V δ)) rfl (p :: E)).2 _ h
      simp [Obj.isGroup] at this
    | .group a0 kids0 =>
      rw [crawl_group_cons] at h
      cases hl : kids0.lookup p with
      | none => rw [hl] at h; simp at h
      | some ch =>
        rw [hl] at h
        simp only at h
        obtain ⟨i1, i2⟩ := ih ch h
        have hi : deleteAt c (p :: E) (.group a0 kids0) =
            .group a0 (setKid p (deleteAt c E ch) kids0) := by
          rw [deleteAt, hl]
        rw [hi]
        refine ⟨?_, ?_⟩
        · intro Q
          rw [List.cons_append, crawl_group_cons, lookup_setKid, if_pos rfl]
          exact i1 Q
        · intro Q hQ
          cases Q with
          | nil => rfl
          | cons k Q =>
            rw [crawl_group_cons, crawl_group_cons, lookup_setKid]
            by_cases hk : k = p
            · subst hk
              rw [if_pos rfl, hl]
              exact i2 Q (fun hp => hQ (by
                rw [List.cons_append]; exact List.cons_prefix_cons.2 ⟨rfl, hp⟩))
            · rw [if_neg hk]

/-! ## `create_group` -/

/-- Nested new groups. -/
def chain : List Str → Node V δ
  | [] => .group [] []
  | c :: cs => .group [] [(c, chain cs)]

theorem crawl_chain_long (C Q : List Str) (h : C.length < Q.length) :
    crawl fields (.node (chain C : Node V δ)) Q = .error .keyError := by
  induction C generalizing Q with
  | nil =>
    cases Q with
    | nil => simp at h
    | cons q Q => rw [chain, crawl_group_cons]; rfl
  | cons c C ih =>
    cases Q with
    | nil => simp at h
    | cons q Q =>
      rw [chain, crawl_group_cons]
      by_cases hq : q = c
      · subst hq
        simp only [List.lookup, beq_self_eq_true]
        exact ih Q (by simpa using h)
      · simp only [List.lookup, beq_eq_false_iff_ne.2 hq]

theorem crawl_chain_prefix (C Q : List Str) (h : Q <+: C) :
    ∃ C', crawl fields (.node (chain C : Node V δ)) Q = .ok (.node (chain C')) := by
  induction C generalizing Q with
  | nil =>
    have : Q = [] := by simpa using h
    subst this
    exact ⟨[], rfl⟩
  | cons c C ih =>
    cases Q with
    | nil => exact ⟨c :: C, rfl⟩
    | cons q Q =>
      obtain ⟨rfl, hp⟩ := List.cons_prefix_cons.1 h
      rw [chain, crawl_group_cons]
      simp only [List.lookup, beq_self_eq_true]
      exact ih Q hp

theorem chain_isGroup (C : List Str) : ∃ kids, (chain C : Node V δ) = .group [] kids := by
  cases C <;> exact ⟨_, rfl⟩

theorem insert_chain (C : List Str) (p : Str) :
    insertAt p (.group [] []) C (chain C : Node V δ) = chain (C ++ [p]) := by
  induction C with
  | nil => rfl
  | cons c C ih =>
    rw [chain, insertAt]
    simp only [List.lookup, beq_self_eq_true, setKid, if_true]
    rw [ih]
    rfl

theorem setKid_setKid (k : Str) (n m : Node V δ) (kids : List (Str × Node V δ)) :
    setKid k n (setKid k m kids) = setKid k n kids := by
  induction kids with
  | nil => simp [setKid]
  | cons x xs ih =>
    obtain ⟨a, b⟩ := x
    by_cases h : a = k
    · simp [setKid, h]
    · simp [setKid, h, ih]

theorem insert_insert (E C : List Str) (c p : Str) (root : Node V δ) (a : List (Str × V))
    (kids : List (Str × Node V δ)) (h : crawl fields (.node root) E = .ok (.node (.group a kids))) :
    insertAt p (.group [] []) (E ++ c :: C) (insertAt c (chain C) E root) =
      insertAt c (chain (C ++ [p])) E root := by
  induction E generalizing root with
  | nil =>
    rw [crawl] at h
    have hr : root = .group a kids := by injection h with h; injection h
    subst hr
    have hi : insertAt p (.group [] []) (c :: C) (.group a (setKid c (chain C) kids)) =
        .group a (setKid c (insertAt p (.group [] []) C (chain C)) (setKid c (chain C) kids)) := by
      rw [insertAt, lookup_setKid, if_pos rfl]
    show insertAt p (.group [] []) (c :: C) (.group a (setKid c (chain C) kids)) = _
    rw [hi, setKid_setKid, insert_chain]
    rfl
  | cons q E ih =>
    match root with
    | .dset d =>
      exfalso
      have := (crawl_below fields (Obj.node (.dset d : Node V δ)) rfl (q :: E)).2 _ h
      simp [Obj.isGroup] at this
    | .group a0 kids0 =>
      rw [crawl_group_cons] at h
      cases hl : kids0.lookup q with
      | none => rw [hl] at h; simp at h
      | some ch =>
        rw [hl] at h
        simp only at h
        have hi : ∀ n, insertAt c n (q :: E) (.group a0 kids0) =
            .group a0 (setKid q (insertAt c n E ch) kids0) := by
          intro n
          rw [insertAt, hl]
        rw [hi, hi, List.cons_append, insertAt, lookup_setKid, if_pos rfl]
        simp only
        rw [setKid_setKid, ih ch h]

/-- The loop after the first new group. -/
theorem createLoop_new (E C : List Str) (c : Str) (rest : List Str) (pname : Str) (root : Node V δ)
    (a : List (Str × V)) (kids : List (Str × Node V δ))
    (h : crawl fields (.node root) E = .ok (.node (.group a kids)))
    (hrest : ∀ p ∈ rest, Part p) (habs : isAbs pname = true)
    (hp : ∃ D, parts pname = E ++ c :: D ∧ C.length < D.length) :
    createLoop fields rest pname (E ++ c :: C) (insertAt c (chain C) E root) =
      (insertAt c (chain (C ++ rest)) E root, none) := by
  induction rest generalizing C pname with
  | nil => simp [createLoop]
  | cons q rest ih =>
    obtain ⟨D, hD, hlen⟩ := hp
    have hq := hrest q (by simp)
    have hqabs : isAbs q = false := by
      cases q with
      | nil => rfl
      | cons x xs =>
        have : x ≠ '/' := by rintro rfl; exact hq.2 (by simp)
        simp [isAbs, this]
    have hp1 : parts (joinPath pname q) = E ++ c :: (D ++ [q]) := by
      rw [parts_join, hqabs, hD, parts_part q hq]
      simp
    have hp2 : parts (joinPath (joinPath pname q) q) = E ++ c :: (D ++ [q, q]) := by
      rw [parts_join, hqabs, hp1, parts_part q hq]
      simp
    rw [createLoop]
    have hget : rootGet fields (insertAt c (chain C) E root) (joinPath pname q) =
        .error .keyError := by
      rw [rootGet_eq _ _ _ (isAbs_join _ _ habs), hp1, (crawl_insert fields c (chain C) E root a kids h).1]
      exact crawl_chain_long fields C _ (by simp; omega)
    rw [hget]
    simp only
    rw [List.append_assoc, List.cons_append, insert_insert fields E C c q root a kids h]
    rw [ih (C ++ [q]) _ (fun p hp => hrest p (List.mem_cons_of_mem _ hp))
      (isAbs_join _ _ (isAbs_join _ _ habs)) ⟨D ++ [q, q], hp2, by simp; omega⟩]
    simp

/-- The loop while groups exist. -/
theorem createLoop_old (rest : List Str) (hrest : ∀ p ∈ rest, Part p) :
    ∀ (E : List Str) (pname : Str) (root : Node V δ) (a : List (Str × V))
    (kids : List (Str × Node V δ)),
    crawl fields (.node root) E = .ok (.node (.group a kids)) →
    crawl fields (.node root) (E ++ rest) = .error .keyError →
    isAbs pname = true → parts pname = E →
    ∃ E' c C a' kids', E ++ rest = E' ++ c :: C ∧
      crawl fields (.node root) E' = .ok (.node (.group a' kids')) ∧ kids'.lookup c = none ∧
      createLoop fields rest pname E root = (insertAt c (chain C) E' root, none) := by
  induction rest with
  | nil =>
    intro E pname root a kids h hk
    rw [List.append_nil, h] at hk
    exact absurd hk (by simp)
  | cons q rest ih =>
    intro E pname root a kids h hk habs hpn
    have hq := hrest q (by simp)
    have hqabs : isAbs q = false := by
      cases q with
      | nil => rfl
      | cons x xs =>
        have : x ≠ '/' := by rintro rfl; exact hq.2 (by simp)
        simp [isAbs, this]
    have hp1 : parts (joinPath pname q) = E ++ [q] := by
      rw [parts_join, hqabs, hpn, parts_part q hq]
      simp
    have hget : rootGet fields root (joinPath pname q) =
        match kids.lookup q with
        | some n => .ok (.node n)
        | none => .error .keyError := by
      rw [rootGet_eq _ _ _ (isAbs_join _ _ habs), hp1, crawl_append, h]
      show crawl fields _ [q] = _
      rw [crawl_group_cons]
      cases kids.lookup q <;> rfl
    rw [createLoop]
    rw [hget]
    have hk' : crawl fields (.node (.group a kids)) (q :: rest) = .error .keyError := by
      rw [crawl_append, h] at hk
      exact hk
    cases hl : kids.lookup q with
    | some n =>
      rw [crawl_group_cons, hl] at hk'
      simp only at hk'
      match n with
      | .dset d => exact absurd hk' (crawl_below fields (Obj.node (.dset d : Node V δ)) rfl rest).1
      | .group a1 kids1 =>
        have hE : crawl fields (.node root) (E ++ [q]) = .ok (.node (.group a1 kids1)) := by
          rw [crawl_append, h]
          show crawl fields _ [q] = _
          rw [crawl_group_cons, hl]
          rfl
        simp only [Obj.isGroup, if_true]
        rw [hp1]
        have := ih (fun p hp => hrest p (List.mem_cons_of_mem _ hp)) (E ++ [q]) _ root a1 kids1 hE
          (by rw [List.append_assoc]; exact hk) (isAbs_join _ _ habs) hp1
        simpa using this
    | none =>
      simp only
      refine ⟨E, q, rest, a, kids, rfl, h, hl, ?_⟩
      have hp2 : parts (joinPath (joinPath pname q) q) = E ++ q :: [q] := by
        rw [parts_join, hqabs, hp1, parts_part q hq]
        simp
      have := createLoop_new fields E [] q rest (joinPath (joinPath pname q) q) root a kids h
        (fun p hp => hrest p (List.mem_cons_of_mem _ hp)) (isAbs_join _ _ (isAbs_join _ _ habs))
        ⟨[q], hp2, by simp⟩
      simpa [chain] using this

/-- `create_group`: either nothing changes and it raises, or new groups are added below the deepest
existing one. -/
theorem createGroup_cases (root : Node V δ) (hroot : ∃ a k, root = .group a k) (g n : Str)
    (hg : isAbs g = true) :
    (∃ e, createGroup fields root g n = (root, some e) ∧
      (crawl fields (.node root) (components g n) ≠ .error .keyError)) ∨
    (crawl fields (.node root) (components g n) = .error .keyError ∧
    ∃ E c C a kids, components g n = E ++ c :: C ∧
      crawl fields (.node root) E = .ok (.node (.group a kids)) ∧ kids.lookup c = none ∧
      createGroup fields root g n = (insertAt c (chain C) E root, none)) := by
  unfold createGroup
  rw [formatAbs_ok _ (isAbs_join g n hg), getItem_eq _ _ _ _ hg]
  simp only
  cases hc : crawl fields (.node root) (components g n) with
  | ok o => exact .inl ⟨_, rfl, by simp⟩
  | error e =>
    by_cases he : e = .keyError
    · subst he
      right
      refine ⟨rfl, ?_⟩
      have hne : components g n ≠ [] := by
        intro h0
        rw [h0] at hc
        simp [crawl] at hc
      obtain ⟨a, k, rfl⟩ := hroot
      simp only
      rw [components_eq, splitSlash_render _ hne (fun x hx => components_mem g n x hx), createLoop]
      have hj : joinPath ['/'] [] = ['/'] := rfl
      simp only [hj]
      have hr : rootGet fields (.group a k : Node V δ) ['/'] = .ok (.node (.group a k)) := by
        rw [rootGet_eq _ _ _ rfl]
        rfl
      rw [hr]
      simp only [Obj.isGroup, if_true]
      exact createLoop_old fields (components g n) (fun x hx => components_mem g n x hx) [] ['/'] _ a k
        rfl hc rfl rfl
    · left
      cases e <;> first | exact absurd rfl he | exact ⟨_, rfl, by simp⟩

theorem insertAt_isGroup (c : Str) (n : Node V δ) (E : List Str) (root : Node V δ)
    (h : ∃ a k, root = .group a k) : ∃ a k, insertAt c n E root = .group a k := by
  obtain ⟨a, k, rfl⟩ := h
  cases E with
  | nil => exact ⟨_, _, rfl⟩
  | cons p E =>
    rw [insertAt]
    cases k.lookup p <;> exact ⟨_, _, rfl⟩

end crawl

end Verif.Mem

namespace Verif.Mem
variable {V δ : Type} (fields : δ → List Str → Option FieldErr)

theorem crawl_chain_other (C Q : List Str) (h : ¬ Q <+: C) :
    crawl fields (.node (chain C : Node V δ)) Q = .error .keyError := by
  induction C generalizing Q with
  | nil =>
    cases Q with
    | nil => exact absurd (List.nil_prefix) h
    | cons q Q => rw [chain, crawl_group_cons]; rfl
  | cons c C ih =>
    cases Q with
    | nil => exact absurd (List.nil_prefix) h
    | cons q Q =>
      rw [chain, crawl_group_cons]
      by_cases hq : q = c
      · subst hq
        simp only [List.lookup, beq_self_eq_true]
        exact ih Q (fun hp => h (List.cons_prefix_cons.2 ⟨rfl, hp⟩))
      · simp only [List.lookup, beq_eq_false_iff_ne.2 hq]

/-- What `create_group` does to lookups: everything that was there stays; the prefixes of the new path
become groups; nothing else appears. -/
theorem createGroup_sees (root root' : Node V δ) (hroot : ∃ a k, root = .group a k) (g n : Str)
    (hg : isAbs g = true) (h : createGroup fields root g n = (root', none)) :
    (∃ a k, root' = .group a k) ∧
    crawl fields (.node root) (components g n) = .error .keyError ∧
    (∀ Q, crawl fields (.node root) Q ≠ .error .keyError →
      (crawl fields (.node root') Q).map Obj.info = (crawl fields (.node root) Q).map Obj.info) ∧
    (∀ Q, Q <+: components g n → ∃ a k, crawl fields (.node root') Q = .ok (.node (.group a k))) ∧
    (∀ Q, crawl fields (.node root) Q = .error .keyError → ¬ Q <+: components g n →
      crawl fields (.node root') Q = .error .keyError) := by
  rcases createGroup_cases fields root hroot g n hg with ⟨e, he, _⟩ | ⟨hk, E, c, C, a, kids, hc, hE, hl, hr⟩
  · rw [he] at h
    simp at h
  · rw [hr] at h
    have hr' : root' = insertAt c (chain C) E root := by simpa using h.symm
    subst hr'
    obtain ⟨i1, i2, i3, i4⟩ := crawl_insert fields c (chain C) E root a kids hE
    have hnew : ∀ Q, (E ++ [c]) <+: Q → crawl fields (.node root) Q = .error .keyError := by
      rintro Q ⟨Q', rfl⟩
      rw [List.append_assoc, crawl_append, hE]
      show crawl fields _ (c :: Q') = _
      rw [crawl_group_cons, hl]
    refine ⟨insertAt_isGroup _ _ _ _ hroot, hk, ?_, ?_, ?_⟩
    · intro Q hQ
      exact i2 Q (fun hp => hQ (hnew Q hp))
    · intro Q hQ
      rw [hc] at hQ
      by_cases hp : (E ++ [c]) <+: Q
      · obtain ⟨Q', rfl⟩ := hp
        rw [List.append_assoc] at hQ ⊢
        have hQ' : Q' <+: C := by
          have := (List.prefix_append_right_inj E).1 hQ
          exact (List.cons_prefix_cons.1 this).2
        obtain ⟨C', hC'⟩ := crawl_chain_prefix (V := V) (δ := δ) fields C Q' hQ'
        obtain ⟨k, hk⟩ := chain_isGroup (V := V) (δ := δ) C'
        refine ⟨[], k, ?_⟩
        show crawl fields _ (E ++ c :: Q') = _
        rw [i1, hC', hk]
      · -- a prefix of E
        have hQE : Q <+: E := by
          rcases List.prefix_or_prefix_of_prefix hQ
            (show (E ++ [c]) <+: E ++ c :: C from ⟨C, by simp⟩) with h1 | h1
          · obtain ⟨t, ht⟩ := h1
            rcases List.eq_nil_or_concat t with rfl | ⟨t', x, rfl⟩
            · rw [List.append_nil] at ht
              exact absurd ⟨[], by rw [← ht, List.append_nil]⟩ hp
            · rw [List.concat_eq_append, ← List.append_assoc] at ht
              have := List.append_inj_left' ht (by simp)
              exact ⟨t', this⟩
          · exact absurd h1 hp
        obtain ⟨t, ht⟩ := hQE
        rw [← ht, crawl_append] at hE
        have hnode : ∃ a k, crawl fields (.node root) Q = .ok (.node (.group a k)) := by
          cases hq : crawl fields (.node root) Q with
          | error e => rw [hq] at hE; exact absurd hE (by simp [Except.bind])
          | ok o =>
            rw [hq] at hE
            have hE' : crawl fields o t = .ok (.node (.group a kids)) := hE
            match o with
            | .node (.group a1 k1) => exact ⟨a1, k1, rfl⟩
            | .node (.dset d) =>
              have := (crawl_below fields (Obj.node (.dset d : Node V δ)) rfl t).2 _ hE'
              simp [Obj.isGroup] at this
            | .field d fs =>
              have := (crawl_below fields (Obj.field d fs : Obj V δ) rfl t).2 _ hE'
              simp [Obj.isGroup] at this
        obtain ⟨a1, k1, h1⟩ := hnode
        have := i2 Q hp
        rw [h1] at this
        cases hq : crawl fields (.node (insertAt c (chain C) E root)) Q with
        | error e => rw [hq] at this; simp [Except.map] at this
        | ok o =>
          rw [hq] at this
          match o, this with
          | .node (.group a2 k2), _ => exact ⟨a2, k2, rfl⟩
          | .node (.dset d), this => simp [Except.map, Obj.info] at this
          | .field d fs, this => simp [Except.map, Obj.info] at this
    · intro Q hQ hnp
      by_cases hp : (E ++ [c]) <+: Q
      · obtain ⟨Q', rfl⟩ := hp
        rw [List.append_assoc] at hnp ⊢
        show crawl fields _ (E ++ c :: Q') = _
        rw [i1]
        apply crawl_chain_other
        intro hp
        apply hnp
        rw [hc]
        exact (List.prefix_append_right_inj E).2 (List.cons_prefix_cons.2 ⟨rfl, hp⟩)
      · have := i2 Q hp
        rw [hQ] at this
        cases hq : crawl fields (.node (insertAt c (chain C) E root)) Q with
        | error e => rw [hq] at this; simpa [Except.map] using this
        | ok o => rw [hq] at this; simp [Except.map] at this

theorem createGroup_error (root root' : Node V δ) (hroot : ∃ a k, root = .group a k) (g n : Str)
    (hg : isAbs g = true) (e : Err) (h : createGroup fields root g n = (root', some e)) :
    root' = root := by
  rcases createGroup_cases fields root hroot g n hg with ⟨e', he, _⟩ | ⟨hk, E, c, C, a, kids, hc, hE, hl, hr⟩
  · rw [he] at h
    exact (Prod.mk.inj h).1.symm
  · rw [hr] at h
    simp at h

/-- `require_group`: nothing that was there changes, and afterwards the group is there. -/
theorem requireGroup_sees (root root' : Node V δ) (hroot : ∃ a k, root = .group a k) (g n : Str)
    (hg : isAbs g = true) (r : Option Err) (h : requireGroup fields root g n = (root', r)) :
    (∃ a k, root' = .group a k) ∧
    (∀ Q, crawl fields (.node root) Q ≠ .error .keyError →
      (crawl fields (.node root') Q).map Obj.info = (crawl fields (.node root) Q).map Obj.info) ∧
    (r = none → ∃ a k, crawl fields (.node root') (components g n) = .ok (.node (.group a k))) ∧
    (∀ Q, crawl fields (.node root) Q = .error .keyError → ¬ Q <+: components g n →
      crawl fields (.node root') Q = .error .keyError) := by
  unfold requireGroup at h
  rw [getItem_eq _ _ _ _ hg] at h
  cases hc : crawl fields (.node root) (components g n) with
  | ok o =>
    rw [hc] at h
    simp only at h
    by_cases ho : o.isGroup = true
    · rw [if_pos ho] at h
      obtain ⟨rfl, rfl⟩ := Prod.mk.inj h
      refine ⟨hroot, fun _ _ => rfl, fun _ => ?_, fun _ h _ => h⟩
      match o, ho with
      | .node (.group a k), _ => exact ⟨a, k, hc⟩
    · rw [if_neg ho] at h
      obtain ⟨rfl, rfl⟩ := Prod.mk.inj h
      exact ⟨hroot, fun _ _ => rfl, by simp, fun _ h _ => h⟩
  | error e =>
    rw [hc] at h
    by_cases he : e = .keyError
    · subst he
      simp only at h
      cases r with
      | none =>
        obtain ⟨h1, _, h3, h4, h5⟩ := createGroup_sees fields root root' hroot g n hg h
        exact ⟨h1, h3, fun _ => h4 _ (List.prefix_rfl), h5⟩
      | some e =>
        have := createGroup_error fields root root' hroot g n hg e h
        subst this
        exact ⟨hroot, fun _ _ => rfl, by simp, fun _ h _ => h⟩
    · have : (root, some e) = (root', r) := by
        cases e <;> first | exact absurd rfl he | exact h
      obtain ⟨rfl, rfl⟩ := Prod.mk.inj this
      exact ⟨hroot, fun _ _ => rfl, by simp, fun _ h _ => h⟩

theorem components_abs (g p : Str) (h : isAbs p = true) : components g p = parts p := by
  unfold components
  rw [if_pos (by simpa [isAbs] using h)]

/-- `create_dataset` under a plain name. -/
theorem createDataset_sees (root root' : Node V δ) (hroot : ∃ a k, root = .group a k) (g n : Str)
    (hg : isAbs g = true) (hn : PlainEnd n) (make : Except Err δ) (r : Option Err)
    (h : createDataset fields root g n make = (root', r)) :
    (∃ a k, root' = .group a k) ∧
    (∀ Q, ¬ components g n <+: Q → crawl fields (.node root) Q ≠ .error .keyError →
      (crawl fields (.node root') Q).map Obj.info = (crawl fields (.node root) Q).map Obj.info) ∧
    (r = none → ∃ d, make = .ok d ∧ ∀ Q, crawl fields (.node root') (components g n ++ Q) =
      crawl fields (.node (.dset d)) Q) ∧
    (∀ Q, crawl fields (.node root) Q = .error .keyError → ¬ Q <+: components g n →
      ¬ components g n <+: Q → crawl fields (.node root') Q = .error .keyError) ∧
    (r ≠ none → ∀ Q, crawl fields (.node root) Q ≠ .error .keyError →
      (crawl fields (.node root') Q).map Obj.info = (crawl fields (.node root) Q).map Obj.info) := by
  unfold createDataset at h
  have habs := isAbs_split _ (isAbs_join g n hg)
  have hcomp := split_join_components g n hg hn
  generalize hsp : splitPath (joinPath g n) = sp at h habs hcomp
  obtain ⟨hd, tl⟩ := sp
  simp only at h habs hcomp
  rw [formatAbs_ok _ habs] at h
  simp only at h
  have hrp : parts (render (parts hd)) = parts hd := parts_render _ (fun q hq => parts_mem _ q hq)
  have hcr : components g (render (parts hd)) = parts hd := by
    rw [components_abs _ _ (isAbs_render _), hrp]
  cases hrg : requireGroup fields root g (render (parts hd)) with
  | mk root1 r1 =>
    rw [hrg] at h
    obtain ⟨q1, q2, q3, q4⟩ := requireGroup_sees fields root root1 hroot g _ hg r1 hrg
    rw [hcr] at q3 q4
    have hpre : parts hd <+: components g n := by rw [hcomp]; exact ⟨_, rfl⟩
    cases r1 with
    | some e =>
      simp only at h
      obtain ⟨rfl, rfl⟩ := Prod.mk.inj h
      exact ⟨q1, fun Q _ hQ => q2 Q hQ, by simp, fun Q hQ h1 _ => q4 Q hQ (fun hp => h1 (hp.trans hpre)),
        fun _ => q2⟩
    | none =>
      simp only at h
      cases make with
      | error e =>
        simp only at h
        obtain ⟨rfl, rfl⟩ := Prod.mk.inj h
        exact ⟨q1, fun Q _ hQ => q2 Q hQ, by simp,
          fun Q hQ h1 _ => q4 Q hQ (fun hp => h1 (hp.trans hpre)), fun _ => q2⟩
      | ok d =>
        simp only at h
        obtain ⟨rfl, rfl⟩ := Prod.mk.inj h
        obtain ⟨a, k, hgr⟩ := q3 rfl
        rw [hrp]
        obtain ⟨i1, i2, i3, i4⟩ := crawl_insert fields tl (.dset d) (parts hd) root1 a k hgr
        refine ⟨insertAt_isGroup _ _ _ _ q1, ?_, ?_, ?_, by simp⟩
        · intro Q hQ hne
          rw [← q2 Q hne]
          exact i2 Q (by rw [← hcomp]; exact hQ)
        · intro _
          refine ⟨d, rfl, fun Q => ?_⟩
          rw [hcomp, List.append_assoc]
          exact i1 Q
        · intro Q hQ h1 h2
          have hk : crawl fields (.node root1) Q = .error .keyError :=
            q4 Q hQ (fun hp => h1 (hp.trans hpre))
          have := i2 Q (by rw [← hcomp]; exact h2)
          rw [hk] at this
          cases hq : crawl fields (.node (insertAt tl (.dset d) (parts hd) root1)) Q with
          | error e => rw [hq] at this; simpa [Except.map] using this
          | ok o => rw [hq] at this; simp [Except.map] at this

theorem see_ne_iff (root : Node V δ) (g n : Str) (hg : isAbs g = true) :
    see fields root g n ≠ .error .keyError ↔
      crawl fields (.node root) (components g n) ≠ .error .keyError := by
  rw [see_eq fields root g n hg]
  cases crawl fields (.node root) (components g n) <;> simp [Except.map]

end Verif.Mem
