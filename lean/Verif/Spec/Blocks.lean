import Verif.Model.Subvector

/-!
# Specification: an allocator of blocks

A client sees a table of live blocks: from the position of a block to its bytes.
-/

namespace Bx.Spec

open Subvector

/-- The live blocks and their bytes. -/
abbrev Live := Nat → Option (List Nat)

def Live.put (l : Live) (p : Nat) (c : Option (List Nat)) : Live :=
  fun q => if q = p then c else l q

/-- The bytes at a position. -/
def bytesAt (s : Sub) (p n : Nat) : List Nat := (s.mem.drop p).take n

/-- The histories of a client: the states the calls lead to, with the table of live
blocks that the client expects.  A client only uses live blocks; the content of a
new block is whatever it finds there. -/
inductive History (n : Nat) : Sub → Live → Prop
  | init {s} : Subvector.init n = .ok (s, true) → History n s (fun _ => none)
  | emplace {s l s' p} : History n s l → s.mem.length + n < 2 ^ 32 →
      Subvector.emplace s = .ok (s', p) → History n s' (l.put p (some (bytesAt s' p n)))
  | remove {s l s' p c} : History n s l → l p = some c → Subvector.remove s p = .ok s' →
      History n s' (l.put p none)
  | fill {s l s' p c v} : History n s l → l p = some c → Subvector.fill s p v = .ok s' →
      History n s' (l.put p (some (List.replicate n v)))
  | copy {s l s' p q c d} : History n s l → l p = some c → l q = some d →
      Subvector.copy s p q = .ok s' → History n s' (l.put q (some c))
  | set {s l s' p c i v} : History n s l → l p = some c → i < n →
      Subvector.put s (p + i) v = .ok s' → History n s' (l.put p (some (c.set i v)))
  | invert {s l s' p c i b} : History n s l → l p = some c → c[i]? = some b →
      Subvector.invert s p i = .ok s' →
      History n s' (l.put p (some (c.set i (if b = 0 then 1 else 0))))

end Bx.Spec
