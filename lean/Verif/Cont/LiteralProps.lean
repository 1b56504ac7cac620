import Verif.Cont.LiteralLemmas
import Verif.Cont.HistoryProps

/-!
# C38: the order of the history is text
-/
namespace Verif.Cont.Literal

/-- **C38** (text). The text written for any list of names is read back as this list: names may have quotes, backslashes,
line ends and characters of any language in them. -/
theorem C38_text (printable : Char → Bool) (l : List String) :
    (literalEval (strList printable (l.map String.toList))).map (fun m => m.map String.ofList) = some l := by
  rw [literalEval_strList]
  simp

/-- The environment with python's texts meets the hypothesis of the theorems on histories. -/
theorem pyEnv_round {V : Type} (printable : Char → Bool) (empty : V) (storable : V → Bool) (l : List String) :
    (pyEnv printable empty storable).parse ((pyEnv printable empty storable).render l) = some l := by
  unfold pyEnv
  simp only [String.toList_ofList]
  exact C38_text printable l

/-- **C38** for the texts that python writes and reads. After any sequence of calls of `add_history` the recorded order is
the sequence of the names used, and every entry reads back as the last value given for it. -/
theorem C38_history_text_partial {V : Type} (printable : Char → Bool) (empty : V) (heap : List V) (calls : List (String × Option Nat))
    (hrefs : ∀ c ∈ calls, ∀ ref, c.2 = some ref → ref < heap.length) :
    let env := pyEnv printable empty fun _ => true
    readOrder env (runCalls env (Hist.init env heap) calls) = .ok (usedNames calls) ∧
    ∀ name, name ≠ "order" → readEntry (runCalls env (Hist.init env heap) calls) name = lastGiven env heap calls name :=
  C38_history_partial _ (pyEnv_round printable empty _) (fun _ => rfl) heap calls hrefs

/-- The same for a container read from a file with a history. -/
theorem C38_old_format_text_partial {V : Type} (printable : Char → Bool) (empty : V) (old : List (String × V)) (s : Hist String V)
    (names : List String) (ho : readOrder (pyEnv printable empty fun _ => true) s = .ok names)
    (hr : ∀ name ref, lastOf s.attrs name = some (.obj ref) → ref < s.heap.length)
    (calls : List (String × Option Nat)) (hrefs : ∀ c ∈ calls, ∀ ref, c.2 = some ref → ref < s.heap.length) :
    let env := pyEnv printable empty fun _ => true
    ∃ h h0, historyOf env old (runCalls env s calls) = .ok h ∧ historyOf env old s = .ok h0 ∧
      h "order" = some (.names (names ++ usedNames calls)) ∧
      ∀ name, name ≠ "order" → h name = ((lastGiven env s.heap calls name).map .entry).or (h0 name) :=
  C38_old_format_partial _ (pyEnv_round printable empty _) (fun _ => rfl) old s names ho hr calls hrefs

/-! ### Cases -/

/-- ASCII is printable. -/
def asciiOnly (c : Char) : Bool := c.toNat < 127

example : strList asciiOnly ["it's".toList, "a\"b'\\\n".toList, "é\u2028".toList] =
    "[\"it's\", 'a\"b\\'\\\\\\n', '\\xe9\\u2028']".toList := by decide +kernel

example : literalEval "[\"it's\", 'a\"b\\'\\\\\\n', '\\xe9\\u2028']".toList =
    some ["it's".toList, "a\"b'\\\n".toList, "é\u2028".toList] := by decide +kernel

example : literalEval "['a', 'b\n']".toList = none := by decide +kernel

end Verif.Cont.Literal
