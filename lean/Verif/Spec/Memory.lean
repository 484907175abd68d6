import Verif.Model.Memory
/-!
What a caller may rely on about memory.
-/
namespace Verif.Spec

variable {K : Type}

/-- Nothing that was in memory before is different afterwards. -/
def Untouched (h h' : Heap K) : Prop := h.next ≤ h'.next ∧ ∀ b < h.next, h'.mem b = h.mem b

/-- Like `Untouched`, except that one buffer may have been written to. -/
def OnlyWrites (b : ℕ) (h h' : Heap K) : Prop := h.next ≤ h'.next ∧ ∀ b' < h.next, b' ≠ b → h'.mem b' = h.mem b'

/-- An imputation function that writes to no array but the one it is given (and its own new ones), and that returns the
array it is given or a new one. -/
def Confined (imp : Imputer K) : Prop :=
  ∀ h s r h', imp h s = .ok (r, h') → OnlyWrites s.buf h h'

/-- The arrays the caller holds before a call. -/
def InMemory (h : Heap K) : DSrc K → Prop
  | .arr _ a => a.buf < h.next
  | .list l => ∀ x ∈ l, match x with
    | .arr _ s _ => s.buf < h.next
    | .list _ => True

/-- The caller writes, after a call that started with memory `h` and ended with memory `h'`, whatever they like to arrays
they had before the call (and to arrays made later): `h''` is what is in memory then. -/
def LaterWrites (h h' h'' : Heap K) : Prop := ∀ b, h.next ≤ b → b < h'.next → h''.mem b = h'.mem b

end Verif.Spec
