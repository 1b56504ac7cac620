import Verif.Glob.Model
import Mathlib.Data.List.Perm.Basic

/-!
# Lemmas on patterns of file names
-/
namespace Verif.Glob
open Verif.Tod (Item Axis Out Name)

theorem not_magic_cons {c : Char} {l : Str} (h : hasMagic (c :: l) = false) : c ≠ '*' ∧ c ≠ '?' ∧ c ≠ '[' ∧ hasMagic l = false := by
  simp only [hasMagic, List.any_cons, Bool.or_eq_false_iff, beq_eq_false_iff_ne, ne_eq] at h ⊢
  exact ⟨h.1.1.1, h.1.1.2, h.1.2, h.2⟩

theorem plain_not_magic {l : Str} (h : Plain l) : hasMagic l = false := by
  simp only [hasMagic, List.any_eq_false, Bool.or_eq_true, beq_iff_eq]
  rintro c hc ((h1 | h1) | h1)
  · exact (h c hc).1 h1
  · exact (h c hc).2.1 h1
  · exact (h c hc).2.2 h1

theorem parse_literal (l r : Str) (h : hasMagic l = false) (n : Nat) :
    parse (l.length + n) (l ++ r) = l.map Tok.lit ++ parse n r := by
  induction l with
  | nil => simp
  | cons c l ih =>
    obtain ⟨h1, h2, h3, h4⟩ := not_magic_cons h
    rw [List.length_cons, show l.length + 1 + n = (l.length + n) + 1 by omega, List.cons_append, parse, if_neg h1, if_neg h2, if_neg h3, ih h4]
    rfl

theorem parse_nil (n : Nat) : parse n [] = [] := by cases n <;> rfl

theorem ranges_spec (l : Str) (c : Char) : ((ranges l).any fun r => decide (r.1 ≤ c ∧ c ≤ r.2)) = true ↔ InSet l c := by
  induction hn : l.length using Nat.strongRecOn generalizing l with
  | ind n ih =>
    subst hn
    have hlit : ∀ (a : Char) (t : Str), (¬ ∃ b l', t = '-' :: b :: l') → (InSet (a :: t) c ↔ a = c ∨ InSet t c) := by
      intro a t ht
      constructor
      · intro h
        cases h with
        | range => exact absurd ⟨_, _, rfl⟩ ht
        | afterRange => exact absurd ⟨_, _, rfl⟩ ht
        | char => exact .inl rfl
        | afterChar _ h => exact .inr h
      · rintro (rfl | h)
        · exact .char ht
        · exact .afterChar ht h
    have hnil : ¬ InSet [] c := by intro h; cases h
    have heq : ∀ a : Char, (a ≤ c ∧ c ≤ a) ↔ a = c := fun a => ⟨fun h => le_antisymm h.1 h.2, fun h => h ▸ ⟨le_refl _, le_refl _⟩⟩
    match l with
    | [] => simp [ranges, hnil]
    | [a] =>
      rw [hlit a [] (by simp)]
      simp [ranges, heq, hnil]
    | [a, b] =>
      rw [hlit a [b] (by simp), hlit b [] (by simp)]
      simp [ranges, heq, hnil]
    | a :: d :: e :: l =>
      rw [ranges]
      by_cases hd : d = '-'
      · subst hd
        rw [if_pos rfl, List.any_cons, Bool.or_eq_true, ih l.length (by simp; omega) l rfl]
        constructor
        · rintro (h | h)
          · simp only [decide_eq_true_eq] at h
            exact .range h.1 h.2
          · exact .afterRange h
        · intro h
          cases h with
          | range h1 h2 => left; simp [h1, h2]
          | afterRange h => exact .inr h
          | char h => exact absurd ⟨_, _, rfl⟩ h
          | afterChar h => exact absurd ⟨_, _, rfl⟩ h
      · rw [if_neg hd, List.any_cons, Bool.or_eq_true, ih (d :: e :: l).length (by simp) (d :: e :: l) rfl, hlit a (d :: e :: l) (by
          rintro ⟨b, l', h⟩
          simp only [List.cons.injEq] at h
          exact hd h.1)]
        simp [heq]

/-- The text up to the closing bracket that ends the set, for what follows the opening bracket and the exclamation mark. -/
theorem inside_split (l : Str) :
    (∀ rest, (l.drop (if l.head? = some ']' then 1 else 0)).dropWhile (· != ']') = ']' :: rest →
      ∃ body, body = l.take (if l.head? = some ']' then 1 else 0) ++ (l.drop (if l.head? = some ']' then 1 else 0)).takeWhile (· != ']') ∧ Inside body ∧ l = body ++ ']' :: rest) := by
  intro rest h
  refine ⟨_, rfl, ?_, ?_⟩
  · have hno : ∀ m : Str, ']' ∉ m.takeWhile (· != ']') := by
      intro m hm
      have := List.all_eq_true.1 (List.all_takeWhile (p := (· != ']')) (l := m)) _ hm
      simp at this
    cases l with
    | nil => simp at h
    | cons a l =>
      by_cases ha : a = ']'
      · subst ha
        simp only [List.head?_cons, if_true, List.take_succ_cons, List.take_zero, List.drop_succ_cons, List.drop_zero]
        exact ⟨by simp, by simpa using hno l⟩
      · simp only [List.head?_cons, Option.some.injEq, ha, if_false, List.take_zero, List.drop_zero, List.nil_append]
        refine ⟨by simp [List.takeWhile_cons, ha], fun hm => hno (a :: l) (List.mem_of_mem_tail hm)⟩
  · rw [List.append_assoc, ← h, List.takeWhile_append_dropWhile, List.take_append_drop]

theorem split_inside (body rest : Str) (h : Inside body) :
    (body ++ ']' :: rest).take (if (body ++ ']' :: rest).head? = some ']' then 1 else 0) ++
        ((body ++ ']' :: rest).drop (if (body ++ ']' :: rest).head? = some ']' then 1 else 0)).takeWhile (· != ']') = body ∧
      ((body ++ ']' :: rest).drop (if (body ++ ']' :: rest).head? = some ']' then 1 else 0)).dropWhile (· != ']') = ']' :: rest := by
  obtain ⟨h1, h2⟩ := h
  have hw : ∀ m : Str, ']' ∉ m → (m ++ ']' :: rest).takeWhile (· != ']') = m ∧ (m ++ ']' :: rest).dropWhile (· != ']') = ']' :: rest := by
    intro m hm
    have hall : ∀ x ∈ m, (x != ']') = true := by
      intro x hx
      simp only [bne_iff_ne, ne_eq]
      rintro rfl
      exact hm hx
    rw [List.takeWhile_append_of_pos hall, List.dropWhile_append_of_pos hall]
    simp
  cases body with
  | nil => exact absurd rfl h1
  | cons a body =>
    by_cases ha : a = ']'
    · subst ha
      simp only [List.cons_append, List.head?_cons, if_true, List.take_succ_cons, List.take_zero, List.drop_succ_cons, List.drop_zero]
      obtain ⟨e1, e2⟩ := hw body (by simpa using h2)
      rw [e1, e2]
      simp
    · have hm : ']' ∉ a :: body := by
        intro hm
        rcases List.mem_cons.1 hm with h | h
        · exact ha h.symm
        · exact h2 h
      simp only [List.cons_append, List.head?_cons, Option.some.injEq, ha, if_false, List.take_zero, List.drop_zero, List.nil_append]
      exact hw (a :: body) hm

theorem brackets_set (body rest : Str) (h : Inside body) (hb : body.head? ≠ some '!') : brackets (body ++ ']' :: rest) = some (false, body, rest) := by
  have hneg : ((body ++ ']' :: rest).head? == some '!') = false := by
    cases body with
    | nil => exact absurd rfl h.1
    | cons a body => simpa using hb
  obtain ⟨e1, e2⟩ := split_inside body rest h
  unfold brackets
  simp only [hneg, Bool.false_eq_true, if_false, e1, e2]

theorem brackets_not (body rest : Str) (h : Inside body) : brackets ('!' :: (body ++ ']' :: rest)) = some (true, body, rest) := by
  obtain ⟨e1, e2⟩ := split_inside body rest h
  unfold brackets
  simp only [List.head?_cons, beq_self_eq_true, if_true, List.drop_succ_cons, List.drop_zero, e1, e2]

theorem brackets_some (l body rest : Str) (neg : Bool) (h : brackets l = some (neg, body, rest)) :
    Inside body ∧ (neg = false → l = body ++ ']' :: rest ∧ body.head? ≠ some '!') ∧ (neg = true → l = '!' :: (body ++ ']' :: rest)) := by
  have hc : ∀ m : Str, ∀ c t, (m.dropWhile (· != ']')) = c :: t → c = ']' := by
    intro m c t hm
    have := List.head?_dropWhile_not (· != ']') m
    rw [hm] at this
    simpa using this
  by_cases hneg : l.head? = some '!'
  · cases l with
    | nil => simp at hneg
    | cons a l =>
      simp only [List.head?_cons, Option.some.injEq] at hneg
      subst hneg
      unfold brackets at h
      simp only [List.head?_cons, beq_self_eq_true, if_true, List.drop_succ_cons, List.drop_zero] at h
      split at h
      · cases h
      · next c t hd =>
        have := hc _ _ _ hd
        subst this
        obtain ⟨b, e1, e2, e3⟩ := inside_split l t hd
        simp only [Option.some.injEq, Prod.mk.injEq] at h
        obtain ⟨rfl, h2, rfl⟩ := h
        have : b = body := e1.trans h2
        subst this
        exact ⟨e2, fun h => (by cases h), fun _ => by rw [← e3]⟩
  · unfold brackets at h
    have hf : (l.head? == some '!') = false := by simpa using hneg
    simp only [hf, Bool.false_eq_true, if_false] at h
    split at h
    · cases h
    · next c t hd =>
      have := hc _ _ _ hd
      subst this
      obtain ⟨b, e1, e2, e3⟩ := inside_split l t hd
      simp only [Option.some.injEq, Prod.mk.injEq] at h
      obtain ⟨rfl, h2, rfl⟩ := h
      have : b = body := e1.trans h2
      subst this
      refine ⟨e2, fun _ => ⟨e3, ?_⟩, fun h => (by cases h)⟩
      intro hb
      apply hneg
      rw [e3]
      cases b with
      | nil => simp at hb
      | cons a b => simpa using hb

theorem brackets_none (l : Str) (h : brackets l = none) (body rest : Str) (hl : l = body ++ ']' :: rest) : body = [] ∨ body = ['!'] := by
  refine Classical.byContradiction fun hno => ?_
  have h1 : body ≠ [] := fun e => hno (.inl e)
  have h2 : body ≠ ['!'] := fun e => hno (.inr e)
  -- the first closing bracket that can end the set
  have key : ∀ (b r : Str), b ≠ [] → ∃ b' r', b ++ ']' :: r = b' ++ ']' :: r' ∧ Inside b' ∧ b'.head? = b.head? := by
    intro b r hb
    cases b with
    | nil => exact absurd rfl hb
    | cons a b =>
      by_cases hm : ']' ∈ b
      · obtain ⟨s, t, rfl, hs⟩ := List.eq_append_cons_of_mem hm
        exact ⟨a :: s, t ++ ']' :: r, by simp, ⟨by simp, by simpa using hs⟩, rfl⟩
      · exact ⟨a :: b, r, rfl, ⟨by simp, by simpa using hm⟩, rfl⟩
  cases body with
  | nil => exact h1 rfl
  | cons a b =>
    by_cases ha : a = '!'
    · subst ha
      have hb : b ≠ [] := fun e => h2 (by rw [e])
      obtain ⟨b', r', e1, e2, -⟩ := key b rest hb
      rw [hl, List.cons_append, e1, brackets_not b' r' e2] at h
      cases h
    · obtain ⟨b', r', e1, e2, e3⟩ := key (a :: b) rest (by simp)
      rw [hl, e1, brackets_set b' r' e2 (by rw [e3]; simpa using ha)] at h
      cases h

theorem parse_enough (p : Str) (n : Nat) (h : p.length ≤ n) : parse n p = parse p.length p := by
  induction hk : p.length using Nat.strongRecOn generalizing p n with
  | ind k ih =>
    subst hk
    cases p with
    | nil => rw [parse_nil, parse_nil]
    | cons c p =>
      obtain ⟨m, rfl⟩ : ∃ m, n = m + 1 := ⟨n - 1, by simp at h; omega⟩
      have hp : p.length ≤ m := by simpa using h
      rw [List.length_cons, parse, parse, ih p.length (by simp) p m hp rfl]
      cases hb : brackets p with
      | none => rfl
      | some x =>
        obtain ⟨neg, body, rest⟩ := x
        have hlen : rest.length < p.length := by
          obtain ⟨-, h1, h2⟩ := brackets_some p body rest neg hb
          cases neg with
          | false => rw [(h1 rfl).1]; simp; omega
          | true => rw [h2 rfl]; simp; omega
        simp only
        rw [ih rest.length (by simp; omega) rest m (by omega) rfl, ih rest.length (by simp; omega) rest p.length (by omega) rfl]

/-- **C111**, matching: the translation of patterns means what is documented. -/
theorem fnmatch_fits (p s : Str) : fnmatch p s = true ↔ Fits p s := by
  induction hk : p.length using Nat.strongRecOn generalizing p s with
  | ind k ih =>
    subst hk
    cases p with
    | nil =>
      cases s with
      | nil => exact ⟨fun _ => .nil, fun _ => rfl⟩
      | cons c s => exact ⟨fun h => (by simp [fnmatch, parse, matchToks] at h), fun h => (by cases h)⟩
    | cons c p =>
      have hrec : ∀ q : Str, q.length < (c :: p).length → ∀ s, matchToks (parse p.length q) s = true ↔ Fits q s := by
        intro q hq s
        rw [parse_enough q p.length (by simp at hq; omega)]
        exact ih q.length hq q s rfl
      unfold fnmatch
      rw [List.length_cons, parse]
      by_cases h1 : c = '*'
      · subst h1
        rw [if_pos rfl]
        simp only [matchToks, List.any_eq_true, List.mem_tails]
        constructor
        · rintro ⟨t, ⟨x, rfl⟩, ht⟩
          exact .star x ((hrec p (by simp) t).1 ht)
        · intro h
          cases h with
          | star x h => exact ⟨_, ⟨x, rfl⟩, (hrec p (by simp) _).2 h⟩
          | char h => exact absurd rfl h
      rw [if_neg h1]
      by_cases h2 : c = '?'
      · subst h2
        rw [if_pos rfl]
        cases s with
        | nil => exact ⟨fun h => (by simp [matchToks] at h), fun h => (by cases h)⟩
        | cons d s =>
          simp only [matchToks, hrec p (by simp) s]
          constructor
          · exact fun h => .one d h
          · intro h
            cases h with
            | one _ h => exact h
            | char _ h => exact absurd rfl h
      rw [if_neg h2]
      by_cases h3 : c = '['
      · subst h3
        rw [if_pos rfl]
        cases hb : brackets p with
        | none =>
          have hopen := brackets_none p hb
          cases s with
          | nil => exact ⟨fun h => (by simp [matchToks] at h), fun h => (by cases h)⟩
          | cons d s =>
            simp only [matchToks, Bool.and_eq_true, beq_iff_eq, hrec p (by simp) s]
            constructor
            · rintro ⟨rfl, h⟩
              exact .bracket hopen h
            · intro h
              cases h with
              | set hi hn _ _ => rw [brackets_set _ _ hi hn] at hb; cases hb
              | notSet hi _ _ => rw [brackets_not _ _ hi] at hb; cases hb
              | bracket _ h => exact ⟨rfl, h⟩
              | char _ _ h => exact absurd rfl h
        | some x =>
          obtain ⟨neg, body, rest⟩ := x
          obtain ⟨hi, hf, ht⟩ := brackets_some p body rest neg hb
          have hlen : rest.length < ('[' :: p).length := by
            cases neg with
            | false => rw [(hf rfl).1]; simp; omega
            | true => rw [ht rfl]; simp; omega
          cases s with
          | nil => exact ⟨fun h => (by simp [matchToks] at h), fun h => (by cases h)⟩
          | cons d s =>
            have hr := ranges_spec body d
            simp only [matchToks, Bool.and_eq_true, hrec rest hlen s]
            cases neg with
            | false =>
              obtain ⟨rfl, hn⟩ := hf rfl
              rw [Bool.bne_false, hr]
              constructor
              · rintro ⟨h1, h2⟩; exact .set hi hn h1 h2
              · intro h
                generalize hp : body ++ ']' :: rest = p at *
                cases h with
                | set hi' hn' hin hfit =>
                  rw [brackets_set _ _ hi' hn'] at hb
                  simp only [Option.some.injEq, Prod.mk.injEq, true_and] at hb
                  obtain ⟨rfl, rfl⟩ := hb
                  exact ⟨hin, hfit⟩
                | notSet hi' _ _ => rw [brackets_not _ _ hi'] at hb; simp at hb
                | bracket hno _ =>
                  rcases hno body rest hp.symm with rfl | rfl
                  · exact absurd rfl hi.1
                  · exact absurd rfl hn
                | char _ _ h => exact absurd rfl h
            | true =>
              obtain rfl := ht rfl
              have hx : (((ranges body).any fun r => decide (r.1 ≤ d ∧ d ≤ r.2)) != true) = true ↔ ¬ InSet body d := by
                rw [← hr]; cases (ranges body).any _ <;> simp
              rw [hx]
              constructor
              · rintro ⟨h1, h2⟩; exact .notSet hi h1 h2
              · intro h
                generalize hp : '!' :: (body ++ ']' :: rest) = p at *
                cases h with
                | set hi' hn' hin hfit => rw [brackets_set _ _ hi' hn'] at hb; simp at hb
                | notSet hi' hin hfit =>
                  rw [brackets_not _ _ hi'] at hb
                  simp only [Option.some.injEq, Prod.mk.injEq, true_and] at hb
                  obtain ⟨rfl, rfl⟩ := hb
                  exact ⟨hin, hfit⟩
                | bracket hno _ =>
                  rcases hno ('!' :: body) rest (by rw [← hp]; rfl) with h | h
                  · cases h
                  · simp only [List.cons.injEq, true_and] at h
                    exact absurd h hi.1
                | char _ _ h => exact absurd rfl h
      · rw [if_neg h3]
        cases s with
        | nil =>
          refine ⟨fun h => (by simp [matchToks] at h), fun h => ?_⟩
          generalize hq : c :: p = q at h
          generalize hs : ([] : Str) = s at h
          cases h <;> simp_all
        | cons d s =>
          simp only [matchToks, Bool.and_eq_true, beq_iff_eq, hrec p (by simp) s]
          constructor
          · rintro ⟨rfl, h⟩; exact .char h1 h2 h3 h
          · intro h
            generalize hq : c :: p = q at h
            generalize hs : d :: s = t at h
            cases h with
            | char _ _ _ h =>
              simp only [List.cons.injEq] at hq hs
              obtain ⟨rfl, rfl⟩ := hq
              obtain ⟨rfl, rfl⟩ := hs
              exact ⟨rfl, h⟩
            | nil => cases hq
            | star => simp only [List.cons.injEq] at hq; exact absurd hq.1 h1
            | one => simp only [List.cons.injEq] at hq; exact absurd hq.1 h2
            | set => simp only [List.cons.injEq] at hq; exact absurd hq.1 h3
            | notSet => simp only [List.cons.injEq] at hq; exact absurd hq.1 h3
            | bracket => simp only [List.cons.injEq] at hq; exact absurd hq.1 h3

theorem sorted_perm {l l' : List Str} (h : l.Perm l') : sorted l = sorted l' := by
  unfold sorted
  refine List.Perm.eq_of_pairwise (le := (· ≤ ·)) ?_ (List.pairwise_insertionSort _ _) (List.pairwise_insertionSort _ _) ?_
  · intro a b _ _ h1 h2; exact le_antisymm h1 h2
  · exact (List.perm_insertionSort _ _).trans (h.trans (List.perm_insertionSort _ _).symm)

theorem globIn_perm {es es' : List Str} (h : es.Perm es') (dir base : Str) : (globIn es dir base).Perm (globIn es' dir base) := by
  unfold globIn
  split
  · exact (h.filter _).map _
  · simp only [h.mem_iff]; exact List.Perm.refl _

theorem glob_perm {ls ls' : Str → List Str} (h : ∀ d, (ls d).Perm (ls' d)) (dir : Str) (comps : List Str) (base : Str) :
    (glob ls dir comps base).Perm (glob ls' dir comps base) := by
  induction comps generalizing dir with
  | nil => exact globIn_perm (h dir) dir base
  | cons c cs ih => exact (globIn_perm (h dir) dir c).flatMap fun d _ => ih (d ++ ['/'])

theorem fits_literal (p s : Str) (h : hasMagic p = false) : Fits p s ↔ s = p := by
  induction p generalizing s with
  | nil => exact ⟨fun h => (by cases h; rfl), fun h => h ▸ .nil⟩
  | cons c p ih =>
    obtain ⟨h1, h2, h3, h4⟩ := not_magic_cons h
    constructor
    · intro hf
      generalize hq : c :: p = q at hf
      cases hf with
      | nil => cases hq
      | char _ _ _ h =>
        simp only [List.cons.injEq] at hq
        obtain ⟨rfl, rfl⟩ := hq
        rw [(ih _ h4).1 h]
      | star => simp only [List.cons.injEq] at hq; exact absurd hq.1 h1
      | one => simp only [List.cons.injEq] at hq; exact absurd hq.1 h2
      | set => simp only [List.cons.injEq] at hq; exact absurd hq.1 h3
      | notSet => simp only [List.cons.injEq] at hq; exact absurd hq.1 h3
      | bracket => simp only [List.cons.injEq] at hq; exact absurd hq.1 h3
    · rintro rfl
      exact .char h1 h2 h3 ((ih p h4).2 rfl)

theorem mem_globIn (es : List Str) (dir pat f : Str) : f ∈ globIn es dir pat ↔ ∃ e, e ∈ es ∧ Entry pat e ∧ f = dir ++ e := by
  unfold globIn Entry
  split
  · next hm =>
    simp only [List.mem_map, List.mem_filter, Bool.and_eq_true, fnmatch_fits]
    have hh : ∀ e : Str, (hidden pat || !hidden e) = true ↔ (e.head? = some '.' → pat.head? = some '.') := by
      intro e
      unfold hidden
      by_cases h1 : pat.head? = some '.' <;> by_cases h2 : e.head? = some '.' <;> simp [h1, h2]
    constructor
    · rintro ⟨e, ⟨he, hf, hd⟩, rfl⟩; exact ⟨e, he, ⟨hf, (hh e).1 hd⟩, rfl⟩
    · rintro ⟨e, he, ⟨hf, hd⟩, rfl⟩; exact ⟨e, ⟨he, hf, (hh e).2 hd⟩, rfl⟩
  · next hm =>
    have hm' : hasMagic pat = false := by simpa using hm
    simp only [fits_literal pat _ hm']
    split
    · next h =>
      simp only [List.mem_singleton]
      exact ⟨fun hf => ⟨pat, h, ⟨rfl, id⟩, hf⟩, fun ⟨e, _, ⟨he, _⟩, hf⟩ => he ▸ hf⟩
    · next h =>
      simp only [List.not_mem_nil, false_iff]
      rintro ⟨e, he, ⟨rfl, -⟩, -⟩
      exact h he

theorem mem_glob (ls : Str → List Str) (dir : Str) (comps : List Str) (base f : Str) : f ∈ glob ls dir comps base ↔ Named ls dir comps base f := by
  induction comps generalizing dir with
  | nil =>
    rw [glob, mem_globIn]
    constructor
    · rintro ⟨e, h1, h2, rfl⟩; exact .name h1 h2
    · intro h
      cases h with
      | name h1 h2 => exact ⟨_, h1, h2, rfl⟩
  | cons c cs ih =>
    simp only [glob, List.mem_flatMap, mem_globIn, ih]
    constructor
    · rintro ⟨d, ⟨e, h1, h2, rfl⟩, h3⟩; exact .sub h1 h2 h3
    · intro h
      cases h with
      | sub h1 h2 h3 => exact ⟨_, ⟨_, h1, h2, rfl⟩, h3⟩

theorem named_prefix {ls : Str → List Str} {dir : Str} {comps : List Str} {base f : Str} (h : Named ls dir comps base f) : dir <+: f := by
  induction h with
  | name => exact List.prefix_append _ _
  | sub _ _ _ ih => exact (List.prefix_append _ _).trans ((List.prefix_append _ _).trans ih)

theorem sorted_asc (l : List Str) (h : l.Nodup) : (sorted l).Pairwise (· < ·) := by
  have h1 : (sorted l).Pairwise (· ≤ ·) := List.pairwise_insertionSort _ _
  have h2 : (sorted l).Nodup := (List.perm_insertionSort _ _).nodup_iff.2 h
  exact (h1.and h2).imp fun h => lt_of_le_of_ne h.1 h.2

theorem globIn_nodup (es : List Str) (h : es.Nodup) (dir base : Str) : (globIn es dir base).Nodup := by
  unfold globIn
  split
  · exact (h.filter _).map (List.append_right_injective dir)
  · split <;> simp

/-- Paths in different directories differ. -/
theorem slash_inj (dir e e' : Str) (he : '/' ∉ e) (he' : '/' ∉ e') (f : Str) (h : dir ++ e ++ ['/'] <+: f) (h' : dir ++ e' ++ ['/'] <+: f) : e = e' := by
  obtain ⟨t, rfl⟩ := h
  obtain ⟨t', h'⟩ := h'
  simp only [List.append_assoc] at h'
  have := List.append_cancel_left h'
  clear h'
  induction e generalizing e' with
  | nil =>
    cases e' with
    | nil => rfl
    | cons a e' =>
      simp only [List.nil_append, List.cons_append, List.cons.injEq] at this
      exact absurd (by rw [this.1]; simp) he'
  | cons b e ih =>
    cases e' with
    | nil =>
      simp only [List.nil_append, List.cons_append, List.cons.injEq] at this
      exact absurd (by rw [← this.1]; simp) he
    | cons a e' =>
      simp only [List.cons_append, List.cons.injEq] at this
      rw [this.1, ih e' (fun h => he (List.mem_cons_of_mem _ h)) (fun h => he' (List.mem_cons_of_mem _ h)) this.2]

theorem glob_nodup (ls : Str → List Str) (h : ∀ d, (ls d).Nodup) (hs : ∀ d, ∀ e ∈ ls d, '/' ∉ e) (dir : Str) (comps : List Str) (base : Str) :
    (glob ls dir comps base).Nodup := by
  induction comps generalizing dir with
  | nil => exact globIn_nodup _ (h dir) _ _
  | cons c cs ih =>
    rw [glob, List.nodup_flatMap]
    refine ⟨fun d _ => ih _, ?_⟩
    refine List.Pairwise.imp_of_mem ?_ (globIn_nodup _ (h dir) dir c)
    intro d d' hd hd' hne f hf hf'
    obtain ⟨e, he, -, rfl⟩ := (mem_globIn _ _ _ _).1 hd
    obtain ⟨e', he', -, rfl⟩ := (mem_globIn _ _ _ _).1 hd'
    exact hne (by rw [slash_inj dir e e' (hs _ _ he) (hs _ _ he') f (named_prefix ((mem_glob _ _ _ _ _).1 hf)) (named_prefix ((mem_glob _ _ _ _ _).1 hf'))])

theorem openAll_ok {α : Type} (content : Str → Option (Item α)) (l : List Str) (it : Str → Item α) (h : ∀ f ∈ l, content f = some (it f)) :
    openAll content (l.map .name) = .ok (l.map it) := by
  induction l with
  | nil => rfl
  | cons f l ih =>
    simp only [List.map_cons, openAll, openRef, h f (by simp), ih (fun g hg => h g (List.mem_cons_of_mem _ hg))]

end Verif.Glob
