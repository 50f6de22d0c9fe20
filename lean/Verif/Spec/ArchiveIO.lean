import Verif.Model.ArchiveIO
/-
What an archive is open for, as a user sees it: from the calls made so far alone.
-/
namespace Srcml.Spec

/-- What the archive is open for after one more call. -/
def modeNext (m : IoMode) : IoCall → IoMode
  | .openWrite true _ => .write
  | .openRead true (some _) => .read
  | .close => .invalid
  | _ => m

/-- What the archive is open for after the calls made so far; a new archive is not open. -/
def modeAfter (cs : List IoCall) : IoMode := cs.foldl modeNext .invalid

/-- The units that are still to be read after one more call. -/
def restNext (m : IoMode) (us : List UnitData) : IoCall → List UnitData
  | .openRead true (some vs) => vs
  | .readUnit => if m = .read then us.tail else us
  | .skipUnit => if m = .read then us.tail else us
  | _ => us

/-- The units that are still to be read, from the calls alone: those of the last document that was opened, less one for each unit
read or skipped since, while the archive was open for reading. -/
def restAfter (cs : List IoCall) : IoMode × List UnitData :=
  cs.foldl (fun p c => (modeNext p.1 c, restNext p.1 p.2 c)) (.invalid, [])

end Srcml.Spec
