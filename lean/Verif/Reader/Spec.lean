import Verif.Reader.Model
/-!
# Specification: what a well behaved reader method is (property C05)
-/
namespace Verif.Reader

/-- The same reader over a longer buffer. -/
def Reader.extend (r : Reader) (s : List UInt8) : Reader := { r with buffer := r.buffer ++ s }

/-- A method that respects the buffer bounds and depends only on bytes it has seen:
* a success stays inside the buffer, only moves forward, and is not changed by
  appending bytes;
* an error other than end-of-input is not changed by appending bytes;
* an end-of-input error asks for a positive number of bytes, and appending fewer bytes
  than asked for still gives an end-of-input error. -/
structure WBAt (f : R α) (r : Reader) : Prop where
  bounds : ∀ a r', f r = .ok (a, r') → r'.buffer = r.buffer ∧
    r'.originalOffset = r.originalOffset ∧ r.position ≤ r'.position ∧
    r'.position ≤ r.buffer.length
  ok_ext : ∀ s a r', f r = .ok (a, r') → f (r.extend s) = .ok (a, r'.extend s)
  msg_ext : ∀ s m off, f r = .error (.msg m off) → f (r.extend s) = .error (.msg m off)
  eof_hint : ∀ off hint, f r = .error (.eof off hint) → 0 < hint ∧
    ∀ s : List UInt8, s.length < hint →
      ∃ off' hint', f (r.extend s) = .error (.eof off' hint')

/-- `WBAt` at every reader whose position is inside its buffer. -/
def WellBehaved (f : R α) : Prop := ∀ r : Reader, r.position ≤ r.buffer.length → WBAt f r

end Verif.Reader
