import Verif.Spec.Filter
import Verif.Spec.Route
import Verif.Spec.MrtFrame
/-
Files one behind the other.
-/
namespace Verif.Spec

/-- The iterator gives exactly these items and then ends: a loop of `n` rounds sees the first `n` of them, and sees the end if there
are fewer. -/
def HandsOut (next : S → Option α × S) (s : S) (l : List α) : Prop :=
  ∀ n, (forLoop next n s).1 = l.take n ∧ ((forLoop next n s).2.1 = true ↔ l.length < n)

/-- Of two files, one behind the other, the iterator gives the items of the first and then those of the second. -/
def JoinsUp (next : S → Option α × S) (start : Src → S) (s₁ s₂ s : Src) : Prop :=
  ∃ l₁ l₂, HandsOut next (start s₁) l₁ ∧ HandsOut next (start s₂) l₂ ∧ HandsOut next (start s) (l₁ ++ l₂)

/-- A file of complete records, another file of any content, and both, one behind the other; each is delivered in pieces of any size. -/
structure Joined (rs : List Raw) (s₁ s₂ s : Src) : Prop where
  intro ::
  files : ∃ b₁ b₂, Blocks Frame rs b₁ ∧ Delivers s₁ b₁ ∧ Delivers s₂ b₂ ∧ Delivers s (b₁ ++ b₂)

/-- RIB records come only behind a peer index table of the same file. -/
def OwnTable (rs : List MrtRecord) : Prop :=
  ∀ pre h r post, rs = pre ++ ⟨h, .tableDumpV2 (.ribAfi r)⟩ :: post → ∃ t ∈ pre, IsTable t

/-- No peer index table. -/
def NoTable (rs : List MrtRecord) : Prop := ∀ r ∈ rs, ¬ IsTable r

/-- The record can be parsed, or the default iterators skip it: an error that does not mean the end of the input, nor, with core dumps,
a parse error. -/
def Passed (cd : Bool) (raw : Raw) : Prop :=
  ∀ e, raw.parse = .error e → e ∉ [.io, .ioEof, .eof, .eofExpected, .filter, .panic] ∧ (cd = true → e ≠ .parse)

end Verif.Spec
