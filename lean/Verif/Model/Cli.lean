import Verif.Model.Cmd

/-!
# Model of the options that the commands declare

Every field of a command carries a kong tag.  Modelled are the values that an `enum` tag offers and the
values that a `default` tag gives; kong refuses a command line with another value for such an option before the
command's `Run` is called.  How kong splits a command line into options and arguments, and its checks of
arguments (`existingfile`, `path`, opening of `*os.File`), are not modelled.
-/

set_option autoImplicit false

namespace Verif.Cmd
open Disk

/-- The `enum` of `--order` (and `--new-order`): cmd/catalog.go:15, cmd/delete.go:14, cmd/dump.go:14, cmd/nakedos.go:29,
cmd/put.go:15, cmd/reorder.go:13-14, cmd/sd.go:17. -/
def orderEnum : List DiskOrder := [str "auto", str "do", str "po"]

/-- The `enum` of `--system` of `ls`: cmd/catalog.go:16. -/
def lsSystemEnum : List Str := [str "auto", str "dos3", str "prodos", str "nakedos"]

/-- The `enum` of `--system` of `put`, `rm` and `dump`: cmd/put.go:16, cmd/delete.go:15, cmd/dump.go:15. -/
def fileSystemEnum : List Str := [str "auto", str "dos3"]

/-- The values of the command's options are among those that its tags offer. -/
def Command.accepted : Command → Bool
  | .ls order system _ _ _ => order ∈ orderEnum ∧ system ∈ lsSystemEnum
  | .reorder order newOrder _ _ _ => order ∈ orderEnum ∧ newOrder ∈ orderEnum
  | .filetypes _ => true
  | .put order system _ _ _ _ _ _ => order ∈ orderEnum ∧ system ∈ fileSystemEnum
  | .rm order system _ _ _ => order ∈ orderEnum ∧ system ∈ fileSystemEnum
  | .dump order system _ _ => order ∈ orderEnum ∧ system ∈ fileSystemEnum
  | .mkhello order _ _ _ _ => order ∈ orderEnum
  | .mksd order _ _ _ _ => order ∈ orderEnum
  | .decode _ _ _ => true

/-! The commands without any option: the values of the `default` tags. -/

/-- cmd/catalog.go:15-18 -/
def plainLs (image : Str) : Command := .ls (str "auto") (str "auto") false image []
/-- cmd/reorder.go:13-15 -/
def plainReorder (image newImage : Str) : Command := .reorder (str "auto") (str "auto") false image newImage
/-- cmd/put.go:15-19 -/
def plainPut (image target source : Str) : Command := .put (str "auto") (str "auto") (str "B") false 0x6000 image target source
/-- cmd/delete.go:14-16 -/
def plainRm (image name : Str) : Command := .rm (str "auto") (str "auto") false image name
/-- cmd/dump.go:14-15 -/
def plainDump (image name : Str) : Command := .dump (str "auto") (str "auto") image name
/-- cmd/nakedos.go:29, 34-35 -/
def plainMkhello (image name : Str) : Command := .mkhello (str "auto") image name 0x6000 0xFFFF
/-- cmd/sd.go:17, 22-23 -/
def plainMksd (image binary : Str) : Command := .mksd (str "auto") image binary 0x6000 0xFFFF
/-- cmd/applesoft.go:23-24 -/
def plainDecode (filename : Str) : Command := .decode filename 0x801 false

end Verif.Cmd
