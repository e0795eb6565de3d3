import Verif.Model.Basic
import Verif.Model.Supermon

/-!
# The model against the repository's unit tests

These are tests of the model, not proofs about it: the expected values of the repository's tests, checked by evaluating the model in the
kernel.  (The tests that read the embedded disk images are not repeated here.)
-/

set_option autoImplicit false

namespace Verif.Conformance

/-- basic/applesoft/applesoft_test.go:13-31 `helloBinary` -/
def helloBinary : Bytes :=
  [0x11, 0x08, 0x0A, 0x00, 0xBA, 0x22, 0x04, 0x43, 0x41, 0x54, 0x41, 0x4C, 0x4F, 0x47, 0x22, 0x00,
   0x17, 0x08, 0x14, 0x00, 0xBA, 0x00, 0x25, 0x08, 0x1E, 0x00, 0xBA, 0x22, 0x48, 0x45, 0x4C, 0x4C,
   0x4F, 0x22, 0x3B, 0x00, 0x34, 0x08, 0x28, 0x00, 0xBA, 0x22, 0x2C, 0x20, 0x57, 0x4F, 0x52, 0x4C,
   0x44, 0x22, 0x00, 0x49, 0x08, 0x32, 0x00, 0x81, 0x49, 0xD0, 0x31, 0xC1, 0x34, 0x30, 0x3A, 0xBA,
   0x22, 0x2A, 0x22, 0x3B, 0x3A, 0x82, 0x49, 0x00, 0x6B, 0x08, 0x3C, 0x00, 0x81, 0x49, 0xD0, 0x31,
   0xC1, 0x31, 0x30, 0x3A, 0x81, 0x4A, 0xD0, 0x31, 0xC1, 0x49, 0x3A, 0xBA, 0x22, 0x20, 0x22, 0x3B,
   0x3A, 0x82, 0x3A, 0xBA, 0x22, 0x2A, 0x22, 0x3A, 0x82, 0x00, 0x98, 0x08, 0x46, 0x00, 0xB2, 0x22,
   0x54, 0x48, 0x49, 0x53, 0x20, 0x49, 0x53, 0x20, 0x41, 0x20, 0x54, 0x45, 0x53, 0x54, 0x20, 0x4F,
   0x46, 0x20, 0x41, 0x20, 0x4C, 0x4F, 0x4E, 0x47, 0x20, 0x4C, 0x49, 0x4E, 0x45, 0x20, 0x4F, 0x46,
   0x20, 0x54, 0x45, 0x58, 0x54, 0x22, 0x00, 0xEC, 0x08, 0x50, 0x00, 0xBA, 0x22, 0x54, 0x48, 0x49,
   0x53, 0x20, 0x49, 0x53, 0x20, 0x41, 0x20, 0x54, 0x45, 0x53, 0x54, 0x20, 0x4F, 0x46, 0x20, 0x41,
   0x4E, 0x20, 0x45, 0x56, 0x45, 0x4E, 0x20, 0x4C, 0x4F, 0x4E, 0x47, 0x45, 0x52, 0x20, 0x4C, 0x49,
   0x4E, 0x45, 0x20, 0x4F, 0x46, 0x20, 0x54, 0x45, 0x58, 0x54, 0x20, 0x54, 0x48, 0x41, 0x54, 0x20,
   0x49, 0x53, 0x20, 0x45, 0x56, 0x45, 0x4E, 0x20, 0x4D, 0x4F, 0x52, 0x45, 0x20, 0x54, 0x48, 0x41,
   0x4E, 0x20, 0x38, 0x30, 0x20, 0x43, 0x4F, 0x4C, 0x53, 0x22, 0x00, 0x04, 0x09, 0x5A, 0x00, 0xBA,
   0x22, 0x41, 0x4C, 0x4C, 0x20, 0x44, 0x4F, 0x4E, 0x45, 0x20, 0x54, 0x45, 0x53, 0x54, 0x49, 0x4E,
   0x47, 0x22, 0x00, 0x00, 0x00, 0x0A]

/-- basic/applesoft/applesoft_test.go:35-44 `helloListing` -/
def helloListing : Str :=
  str "10  PRINT \"" ++ [0xC2, 0xAB] ++ str "ctrl-D" ++ [0xC2, 0xBB] ++ str "CATALOG\"\n" ++
  str "20  PRINT \n" ++
  str "30  PRINT \"HELLO\";\n" ++
  str "40  PRINT \", WORLD\"\n" ++
  str "50  FOR I = 1 TO 40: PRINT \"*\";: NEXT I\n" ++
  str "60  FOR I = 1 TO 10: FOR J = 1 TO I: PRINT \" \";: NEXT : PRINT \"*\": NEXT \n" ++
  str "70  REM \"THIS IS A TEST OF A LONG LINE OF TEXT\"\n" ++
  str "80  PRINT \"THIS IS A TEST OF AN EVEN LONGER LINE OF TEXT THAT IS EVEN MORE THAN 80 COLS\"\n" ++
  str "90  PRINT \"ALL DONE TESTING\"\n"

/-- basic/applesoft/applesoft_test.go:48-57 `TestParse` -/
theorem test_applesoft_parse :
    (Applesoft.decode 1000 helloBinary 0x801).bind (fun l => .ok (Basic.chevronControlCodes (Applesoft.Listing.string l))) = .ok helloListing := by
  decide +kernel

/-- supermon/supermon_test.go:150-187 `TestEncodeDecode` -/
theorem test_encode_decode :
    (∀ s ∈ ["", "ABC", "abc", "ABCDEFGHI", "abcdefghi", "ABCDEF123", "abcdef123"].map str,
      (Supermon.encodeSymbol s).bind (fun b => .ok (Supermon.decodeSymbol #v[b[0], b[1], b[2], b[3], b[4]] b[5])) = .ok (toUpper s)) ∧
    ∀ s ∈ ["AB", "ab", "ABCDE1234", "abcde1234"].map str, (Supermon.encodeSymbol s).isErr = true := by
  decide +kernel

end Verif.Conformance
