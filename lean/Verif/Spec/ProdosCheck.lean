import Verif.Go.Basic

/-!
# Specification vocabulary for the checks of ProDOS directory blocks

Facts about the directory format (ProDOS 8 Technical Reference Manual, appendix B), independent of
the model.  A directory block holds entries of 39 bytes from byte 4 on; in a key block the first
is the header.  The time of creation occupies the third and fourth byte of the four from byte
`$18` of an entry, the time of the last change those from byte `$21`.
-/

set_option autoImplicit false

namespace Verif.Spec.Prodos

/-- Where a key block holds times of day: in its header and twice in each of its 12 entries. -/
def keyTimes : List Nat := (4 + 0x1a) :: (List.range 12).flatMap fun k => [43 + 39 * k + 0x1a, 43 + 39 * k + 0x23]

/-- Where any other directory block holds times of day: twice in each of its 13 entries. -/
def blockTimes : List Nat := (List.range 13).flatMap fun k => [4 + 39 * k + 0x1a, 4 + 39 * k + 0x23]

/-- A time of day as ProDOS stores it: the minute first, then the hour. -/
def ProdosTime (b : Bytes) (i : Nat) : Prop := (b.getD i 0).toNat < 60 ∧ (b.getD (i + 1) 0).toNat < 24

end Verif.Spec.Prodos
