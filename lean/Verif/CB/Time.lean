import Verif.CB.Add
import Verif.CB.Read
import Verif.Der.GoTime
/-!
# Model of the time methods: asn1.go:101-112 and 433-450
-/
namespace Verif.CB
open Der.GoTime

/-- `asn1.GeneralizedTime` (/repo/cryptobyte/asn1/asn1.go:44). -/
def tagGeneralizedTime : Tag := 24

/-- `AddASN1GeneralizedTime` (/repo/cryptobyte/asn1.go:104-112). -/
def addASN1GeneralizedTime (t : GTime) (rest : Prog) : Prog :=
  if t.year < 0 ∨ t.year > 9999 then .setErr false "cryptobyte: cannot represent as a GeneralizedTime" rest
  else .asn1 tagGeneralizedTime (.add (format true true t) .nil) rest

/-- `(*String).ReadASN1GeneralizedTime` (/repo/cryptobyte/asn1.go:435-450). -/
def readASN1GeneralizedTime : Reader GTime := fun s => do
  let (r, s) ← readASN1Tag tagGeneralizedTime s
  match r with
  | none => .ok (none, s)
  | some bytes => .ok (generalized bytes.bytes, s)

end Verif.CB
