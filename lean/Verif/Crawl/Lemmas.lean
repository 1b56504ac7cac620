import Verif.Crawl.Spec

/-!
# Lemmas for redistributing a container
-/
namespace Verif.Crawl

variable {δ : Type}


theorem resolve_means (d : Ds δ) (a : AxisArg) (h : ∀ z, a = .num z → -(d.naxis : Int) ≤ z) (r : Int) :
    resolve d a = some r ↔ ∃ k : Nat, r = k ∧ Means d.naxis d.labels a k := by
  cases a with
  | name s =>
    unfold resolve Means
    simp only
    cases hl : d.labels with
    | none => simp
    | some l =>
      simp only [Option.some.injEq, exists_eq_left']
      have key : ∀ k, l.idxOf? s = some k ↔ l[k]? = some s ∧ ∀ j < k, l[j]? ≠ some s := by
        intro k
        rw [List.idxOf?, List.findIdx?_eq_some_iff_getElem]
        constructor
        · rintro ⟨hk, h1, h2⟩
          refine ⟨by rw [List.getElem?_eq_getElem hk]; simpa using h1, fun j hj e => ?_⟩
          obtain ⟨hj', e⟩ := List.getElem?_eq_some_iff.1 e
          exact h2 j hj (by simpa using e)
        · rintro ⟨h1, h2⟩
          obtain ⟨hk, h1⟩ := List.getElem?_eq_some_iff.1 h1
          exact ⟨hk, by simpa using h1, fun j hj e => h2 j hj (by
            rw [List.getElem?_eq_getElem (by omega)]; simpa using e)⟩
      cases hi : l.idxOf? s with
      | none =>
        simp only
        constructor
        · intro h; cases h
        · rintro ⟨k, -, -, h⟩
          rw [(key k).2 h] at hi
          cases hi
      | some k =>
        simp only
        have hk := (key k).1 hi
        constructor
        · intro h
          split at h
          · cases h
          · exact ⟨k, (Option.some.inj h).symm, by omega, hk⟩
        · rintro ⟨k', rfl, h1, h2⟩
          rw [(key k').2 h2] at hi
          obtain rfl := Option.some.inj hi
          rw [if_neg (by omega)]
  | num z =>
    have hz := h z rfl
    unfold resolve Means
    simp only
    constructor
    · intro h
      generalize hq : (if z < 0 then (d.naxis : Int) + z else z) = q at h
      split at h
      · cases h
      · have h := Option.some.inj h
        split at hq
        · exact ⟨(d.naxis + z).toNat, by omega, by omega, by omega⟩
        · exact ⟨z.toNat, by omega, by omega, by omega⟩
    · rintro ⟨k, rfl, h1, h2⟩
      split
      · have : (d.naxis : Int) + z = k := by omega
        rw [this, if_neg (by omega)]
      · have : z = k := by omega
        rw [this, if_neg (by omega)]

theorem means_unique (naxis : Nat) (labels : Option (List Str)) (a : AxisArg) (k k' : Nat) (h : Means naxis labels a k)
    (h' : Means naxis labels a k') : k = k' := by
  cases a with
  | name s =>
    obtain ⟨l, e, -, h1, h2⟩ := h
    obtain ⟨l', e', -, h1', h2'⟩ := h'
    rw [e] at e'
    obtain rfl := Option.some.inj e'
    rcases Nat.lt_trichotomy k k' with h | h | h
    · exact absurd h1 (h2' k h)
    · exact h
    · exact absurd h1' (h2 k' h)
  | num z =>
    obtain ⟨h1, h2⟩ := h
    obtain ⟨h1', h2'⟩ := h'
    omega

theorem findSome_chosen (d : Ds δ) (args : List AxisArg) (h : InReach d.naxis args) (r : Int) :
    args.findSome? (resolve d) = some r ↔ ∃ k : Nat, r = k ∧ Chosen d.naxis d.labels args k := by
  induction args with
  | nil =>
    simp only [List.findSome?_nil]
    constructor
    · intro h; cases h
    · rintro ⟨k, -, i, a, h, -⟩
      simp at h
  | cons a args ih =>
    have ih := ih (fun z hz => h z (List.mem_cons_of_mem _ hz))
    have ha : ∀ z, a = .num z → -(d.naxis : Int) ≤ z := fun z hz => h z (by rw [hz]; exact List.mem_cons_self)
    rw [List.findSome?_cons]
    cases hr : resolve d a with
    | some q =>
      obtain ⟨k, rfl, hk⟩ := (resolve_means d a ha q).1 hr
      simp only [Option.some.injEq]
      constructor
      · rintro rfl
        exact ⟨k, rfl, 0, a, rfl, hk, fun j b hj => absurd hj (Nat.not_lt_zero _)⟩
      · rintro ⟨k', rfl, i, b, hi, hb, hno⟩
        cases i with
        | zero =>
          obtain rfl := Option.some.inj hi
          rw [means_unique _ _ _ _ _ hk hb]
        | succ i => exact absurd hk (hno 0 a (by omega) rfl k)
    | none =>
      have hna : ∀ k, ¬ Means d.naxis d.labels a k := by
        intro k hk
        rw [(resolve_means d a ha k).2 ⟨k, rfl, hk⟩] at hr
        cases hr
      simp only
      rw [ih]
      constructor
      · rintro ⟨k, rfl, i, b, hi, hb, hno⟩
        refine ⟨k, rfl, i + 1, b, by simpa using hi, hb, fun j c hj hc => ?_⟩
        cases j with
        | zero =>
          obtain rfl := Option.some.inj hc
          exact hna
        | succ j => exact hno j c (by omega) (by simpa using hc)
      · rintro ⟨k, rfl, i, b, hi, hb, hno⟩
        cases i with
        | zero =>
          obtain rfl := Option.some.inj hi
          exact absurd hb (hna k)
        | succ i =>
          exact ⟨k, rfl, i, b, by simpa using hi, hb, fun j c hj hc => hno (j + 1) c (by omega) (by simpa using hc)⟩

/-- What happens to a dataset that is visited. -/
def upd (move : Int → δ → δ) (args : List AxisArg) (d : Ds δ) : Ds δ :=
  match d.dist, args.findSome? (resolve d) with
  | some x, some k => { d with dist := some (move k x) }
  | _, _ => d

theorem resolve_same (d d' : Ds δ) (h1 : d'.naxis = d.naxis) (h2 : d'.labels = d.labels) : resolve d' = resolve d := by
  funext a
  unfold resolve
  rw [h1, h2]

theorem upd_idem (move : Int → δ → δ) (hm : ∀ k x, move k (move k x) = move k x) (args : List AxisArg) (d : Ds δ) :
    upd move args (upd move args d) = upd move args d := by
  cases hd : d.dist with
  | none =>
    have : upd move args d = d := by simp [upd, hd]
    rw [this, this]
  | some x =>
    cases hk : args.findSome? (resolve d) with
    | none =>
      have : upd move args d = d := by simp [upd, hd, hk]
      rw [this, this]
    | some k =>
      have : upd move args d = { d with dist := some (move k x) } := by simp [upd, hd, hk]
      rw [this]
      have hk' : args.findSome? (resolve { d with dist := some (move k x) }) = some k := by
        rw [resolve_same d { d with dist := some (move k x) } rfl rfl, hk]
      unfold upd
      simp only [hk', hm]

theorem visit_heap (move : Int → δ → δ) (args : List AxisArg) (s : St δ) (name : Str) (addr a : Nat) :
    (visit move args s name addr).heap a = if a = addr then (s.heap a).map (upd move args) else s.heap a := by
  unfold visit
  by_cases ha : a = addr
  · subst ha
    rw [if_pos rfl]
    cases h : s.heap a with
    | none => simp [h]
    | some d =>
      simp only
      cases hd : d.dist with
      | none => simp [h, upd, hd]
      | some x =>
        simp only
        cases hk : args.findSome? (resolve d) with
        | none => simp [h, upd, hd, hk]
        | some k => simp [upd, hd, hk]
  · rw [if_neg ha]
    cases h : s.heap addr with
    | none => rfl
    | some d =>
      simp only
      cases hd : d.dist with
      | none => rfl
      | some x =>
        simp only
        cases hk : args.findSome? (resolve d) with
        | none => rfl
        | some k => simp [ha]

/-- A dataset is somewhere in the trees of a stack. -/
def InStack (stack : List (Str × Tree)) (addr : Nat) : Prop := ∃ x ∈ stack, ∃ p, Holds x.2 p addr

theorem inStack_group (name : Str) (kids : Kids) (stack : List (Str × Tree)) (addr : Nat) :
    InStack (kids.toList.reverse ++ stack) addr ↔ InStack ((name, .group kids) :: stack) addr := by
  constructor
  · rintro ⟨x, hx, p, hp⟩
    rcases List.mem_append.1 hx with hx | hx
    · exact ⟨_, List.mem_cons_self, _, .inside kids x.1 x.2 p addr (List.mem_reverse.1 hx) hp⟩
    · exact ⟨x, List.mem_cons_of_mem _ hx, p, hp⟩
  · rintro ⟨x, hx, p, hp⟩
    rcases List.mem_cons.1 hx with rfl | hx
    · cases hp with
      | inside _ n t p _ hm hp => exact ⟨_, List.mem_append_left _ (List.mem_reverse.2 hm), p, hp⟩
    · exact ⟨x, List.mem_append_right _ hx, p, hp⟩

theorem inStack_dset (name : Str) (addr : Nat) (stack : List (Str × Tree)) (a : Nat) :
    InStack ((name, .dset addr) :: stack) a ↔ a = addr ∨ InStack stack a := by
  constructor
  · rintro ⟨x, hx, p, hp⟩
    rcases List.mem_cons.1 hx with rfl | hx
    · cases hp
      exact .inl rfl
    · exact .inr ⟨x, hx, p, hp⟩
  · rintro (rfl | ⟨x, hx, p, hp⟩)
    · exact ⟨_, List.mem_cons_self, [], .here _⟩
    · exact ⟨x, List.mem_cons_of_mem _ hx, p, hp⟩

theorem crawl_heap (move : Int → δ → δ) (hm : ∀ k x, move k (move k x) = move k x) (args : List AxisArg)
    (stack : List (Str × Tree)) (s : St δ) (a : Nat) :
    (InStack stack a → (crawl move args stack s).heap a = (s.heap a).map (upd move args)) ∧
    (¬ InStack stack a → (crawl move args stack s).heap a = s.heap a) := by
  fun_induction crawl move args stack s with
  | case1 s => exact ⟨fun ⟨x, hx, _⟩ => absurd hx (by simp), fun _ => rfl⟩
  | case2 s name stack kids ih =>
    rw [← inStack_group]
    exact ih
  | case3 name stack s addr ih =>
    rw [inStack_dset]
    rw [visit_heap] at ih
    constructor
    · intro h
      by_cases hs : InStack stack a
      · rw [ih.1 hs]
        split
        · rw [Option.map_map]
          congr 1
          funext d
          exact upd_idem move hm args d
        · rfl
      · rw [ih.2 hs, if_pos (h.resolve_right hs)]
    · intro h
      rw [ih.2 (fun hs => h (.inr hs)), if_neg (fun e => h (.inl e))]

theorem upd_becomes (move : Int → δ → δ) (args : List AxisArg) (d : Ds δ) (h : InReach d.naxis args) :
    Becomes move args d (upd move args d) := by
  cases hd : d.dist with
  | none =>
    have hu : upd move args d = d := by simp [upd, hd]
    rw [hu]
    exact ⟨rfl, rfl, fun _ => hd, fun x hx => (by rw [hd] at hx; cases hx)⟩
  | some x =>
    cases hk : args.findSome? (resolve d) with
    | none =>
      have hu : upd move args d = d := by simp [upd, hd, hk]
      rw [hu]
      refine ⟨rfl, rfl, fun h => (by rw [hd] at h; cases h), fun y hy => ?_⟩
      rw [hd] at hy
      obtain rfl := Option.some.inj hy
      refine ⟨fun k hc => ?_, fun _ => hd⟩
      rw [(findSome_chosen d args h k).2 ⟨k, rfl, hc⟩] at hk
      cases hk
    | some r =>
      obtain ⟨k, rfl, hc⟩ := (findSome_chosen d args h r).1 hk
      have hu : upd move args d = { d with dist := some (move k x) } := by simp [upd, hd, hk]
      rw [hu]
      refine ⟨rfl, rfl, fun h => (by rw [hd] at h; cases h), fun y hy => ?_⟩
      rw [hd] at hy
      obtain rfl := Option.some.inj hy
      refine ⟨fun k' hc' => ?_, fun hno => absurd hc (hno k)⟩
      have := (findSome_chosen d args h k').2 ⟨k', rfl, hc'⟩
      rw [hk] at this
      rw [Option.some.inj this]

/-- Whether a dataset is missed depends only on what does not change. -/
def missedAt (args : List AxisArg) (heap : Nat → Option (Ds δ)) (a : Nat) : Bool :=
  match heap a with
  | none => false
  | some d => d.dist.isSome && (args.findSome? (resolve d)).isNone

theorem missedAt_upd (move : Int → δ → δ) (args : List AxisArg) (heap heap' : Nat → Option (Ds δ)) (a : Nat)
    (h : heap' a = heap a ∨ heap' a = (heap a).map (upd move args)) : missedAt args heap' a = missedAt args heap a := by
  rcases h with h | h
  · unfold missedAt
    rw [h]
  · unfold missedAt
    rw [h]
    cases heap a with
    | none => rfl
    | some d =>
      simp only [Option.map_some]
      cases hd : d.dist with
      | none => simp [upd, hd]
      | some x =>
        cases hk : args.findSome? (resolve d) with
        | none => simp [upd, hd, hk]
        | some k =>
          have : upd move args d = { d with dist := some (move k x) } := by simp [upd, hd, hk]
          have hk' : args.findSome? (resolve { d with dist := some (move k x) }) = some k := by
            rw [resolve_same d { d with dist := some (move k x) } rfl rfl, hk]
          rw [this]
          simp [hk']

theorem visit_warned (move : Int → δ → δ) (args : List AxisArg) (s : St δ) (name : Str) (addr : Nat) :
    (visit move args s name addr).warned = s.warned ++ if missedAt args s.heap addr then [name] else [] := by
  cases h : s.heap addr with
  | none => simp [visit, missedAt, h]
  | some d =>
    cases hd : d.dist with
    | none => simp [visit, missedAt, h, hd]
    | some x =>
      cases hk : args.findSome? (resolve d) with
      | none => simp [visit, missedAt, h, hd, hk]
      | some k => simp [visit, missedAt, h, hd, hk]

theorem crawl_warned (move : Int → δ → δ) (args : List AxisArg) (heap : Nat → Option (Ds δ))
    (stack : List (Str × Tree)) (s : St δ) (hs : ∀ a, missedAt args s.heap a = missedAt args heap a) (w : Str) :
    w ∈ (crawl move args stack s).warned ↔ w ∈ s.warned ∨
      ∃ x ∈ stack, ∃ p addr, Holds x.2 p addr ∧ missedAt args heap addr = true ∧ (x.1 :: p).getLast? = some w := by
  fun_induction crawl move args stack s with
  | case1 s => simp
  | case2 s name stack kids ih =>
    rw [ih hs]
    refine or_congr Iff.rfl ⟨?_, ?_⟩
    · rintro ⟨x, hx, p, addr, h1, h2, h3⟩
      rcases List.mem_append.1 hx with hx | hx
      · exact ⟨_, List.mem_cons_self, _, addr, .inside kids x.1 x.2 p addr (List.mem_reverse.1 hx) h1, h2, by
          rw [List.getLast?_cons_cons]; exact h3⟩
      · exact ⟨x, List.mem_cons_of_mem _ hx, p, addr, h1, h2, h3⟩
    · rintro ⟨x, hx, p, addr, h1, h2, h3⟩
      rcases List.mem_cons.1 hx with rfl | hx
      · cases h1 with
        | inside _ n t p _ hm hp =>
          exact ⟨_, List.mem_append_left _ (List.mem_reverse.2 hm), p, addr, hp, h2, by
            rw [List.getLast?_cons_cons] at h3; exact h3⟩
      · exact ⟨x, List.mem_append_right _ hx, p, addr, h1, h2, h3⟩
  | case3 name stack s addr ih =>
    rw [ih (fun a => by
      rw [← hs a]
      apply missedAt_upd move
      rw [visit_heap]
      split
      · exact .inr rfl
      · exact .inl rfl)]
    rw [visit_warned, hs addr, List.mem_append, or_assoc]
    refine or_congr Iff.rfl ⟨?_, ?_⟩
    · rintro (h | ⟨x, hx, h⟩)
      · split at h
        · rename_i hmiss
          exact ⟨_, List.mem_cons_self, [], addr, .here _, hmiss, by rw [List.mem_singleton.1 h]; rfl⟩
        · cases h
      · exact ⟨x, List.mem_cons_of_mem _ hx, h⟩
    · rintro ⟨x, hx, p, a, h1, h2, h3⟩
      rcases List.mem_cons.1 hx with rfl | hx
      · cases h1
        left
        rw [if_pos h2]
        exact List.mem_singleton.2 (Option.some.inj h3).symm
      · exact .inr ⟨x, hx, p, a, h1, h2, h3⟩

end Verif.Crawl
