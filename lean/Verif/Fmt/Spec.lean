import Verif.Fmt.Model

/-!
# What formats and compression should be
-/
namespace Verif.Fmt

/-- The spellings of the bitshuffle filter. -/
def Shuffles (c : Val) : Prop := c = .str "bitshuffle" ∨ c = .num 32008 ∨ c = .str "32008"

/-- The spellings of the codec LZ4. -/
def Lz4 (d : Val) : Prop := d = .num 2 ∨ d = .str "2" ∨ d = .str "lz4"

/-- The spellings of the size of a block; zero lets the library choose. -/
def Block (b : Val) (n : Int) : Prop := b = .num n ∨ (b = .none ∧ n = 0)

/-- A size of a block that stands for a number. -/
def IsSize (e : Env) (b : Val) : Prop := b = .none ∨ (∃ n, b = .num n) ∨ ∃ s n, b = .str s ∧ e.intOf s = some n

/-- The settings a dataset should have, from its own and what the configuration says about it. -/
def Chosen (own : Setting) (l : List Entry) (s : Setting) : Prop :=
  (s.chunks = own.chunks ∧ (∀ v, .chunks v ∉ l) ∨ .chunks s.chunks ∈ l) ∧
  (s.comp = own.comp ∧ (∀ v, .comp v ∉ l) ∨ .comp s.comp ∈ l) ∧
  (s.opts = own.opts ∧ (∀ v, .opts v ∉ l) ∨ .opts s.opts ∈ l)

end Verif.Fmt
