import Verif.Go.Basic

/-!
# Model of `errors/errors.go`

An error value is its concrete Go type and its message.
-/

set_option autoImplicit false

namespace Verif.Errors

/-- The concrete types of error values: the standard library's, the package's three, and the
wrapper that `fmt.Errorf` with `%w` makes. -/
inductive GoError where
  | plain (text : Str)
  | outOfSpace (text : Str)
  | fileExists (text : Str)
  | fileNotFound (text : Str)
  | wrapped (text : Str) (inner : GoError)

/-- errors/errors.go:14-16 `New` -/
def new (text : Str) : GoError := .plain text
/-- errors/errors.go:41-43 `OutOfSpacef`, given the formatted text. -/
def outOfSpacef (text : Str) : GoError := .outOfSpace text
/-- errors/errors.go:74-76 `FileExistsf`, given the formatted text. -/
def fileExistsf (text : Str) : GoError := .fileExists text
/-- errors/errors.go:107-109 `FileNotFoundf`, given the formatted text. -/
def fileNotFoundf (text : Str) : GoError := .fileNotFound text

/-- errors/errors.go:32-34, 65-67, 98-100 `Error` -/
def GoError.error : GoError → Str
  | .plain t => t
  | .outOfSpace t => t
  | .fileExists t => t
  | .fileNotFound t => t
  | .wrapped t _ => t

/-- errors/errors.go:46-49 `IsOutOfSpace`; a nil error fails the type assertion. -/
def isOutOfSpace : Option GoError → Bool
  | some (.outOfSpace _) => true
  | _ => false
/-- errors/errors.go:79-82 `IsFileExists` -/
def isFileExists : Option GoError → Bool
  | some (.fileExists _) => true
  | _ => false
/-- errors/errors.go:112-115 `IsFileNotFound` -/
def isFileNotFound : Option GoError → Bool
  | some (.fileNotFound _) => true
  | _ => false

/-- The class of an error in the rest of the model. -/
def kind : GoError → ErrKind
  | .outOfSpace _ => .outOfSpace
  | .fileExists _ => .fileExists
  | .fileNotFound _ => .fileNotFound
  | _ => .other

end Verif.Errors
