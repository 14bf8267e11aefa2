import Verif.Go.Durafmt
import Verif.Go.Time
import Verif.Model.Stats
import Verif.Model.Tls
/-!
# tls.go:17-51, 125-168 — the text of the certificate report

The epoch of the times of a certificate is the Unix epoch, their zone is UTC (as `x509` parses them).
-/
namespace J8a
open Go

/-- tls.go:19-21 `AsString`. -/
def asString (d : Int) : Str := durafmt d 2

/-- tls.go:27-29 `AsDays`, of a duration that is not negative: `Hours()` is a sum of whole hours and a quotient. -/
def asDays (d : Nat) : Nat :=
  let hours := F64.roundNat (F64.roundNat (d / 3600000000000) * 2 ^ 1074 +
    GoFloat.divNat (F64.roundNat (d % 3600000000000)) 3600000000000)
  GoFloat.divNat hours (24 * 2 ^ 1074) / 2 ^ 1074

/-- tls.go:41-43 `browserExpiry`: 398 days. -/
def browserMax : Int := 398 * 24 * 3600 * 10 ^ 9

/-- tls.go:194: `Sub` saturates. -/
def totalValidity (c : Cert) : Int := timeUntil c.notAfter c.notBefore

/-- tls.go:195 -/
def browserValidity (c : Cert) (now : Int) : Int := timeUntil (c.notBefore + browserMax) now

/-- tls.go:45-51 `printRemainingValidity`. -/
def printRemainingValidity (l : TlsLink) : Str :=
  asString l.remainingValidity ++ if l.earliestExpiry then ", which is the earliest in your chain".toList else []

/-- tls.go:132-140 -/
def leafSentence (i n : Nat) (serial : Str) (l : TlsLink) : Str :=
  '[' :: natToDec (i + 1) ++ '/' :: natToDec n ++ "] TLS cert #".toList ++ serial ++ " for DNS names [".toList ++
  join [' '] l.cert.dnsNames ++ "], issued on ".toList ++ formatDate (absOf (l.cert.notBefore / 10 ^ 9) 0) ++
  ", signed by [".toList ++ l.cert.issuer.cn ++ "], expires in ".toList ++ printRemainingValidity l ++ ". ".toList

/-- tls.go:141-145 -/
def totalSentence (c : Cert) : Str :=
  if browserMax < totalValidity c then
    "Total validity period of ".toList ++ natToDec (asDays (totalValidity c).toNat) ++
    " days is above legal browser max ".toList ++ natToDec (asDays browserMax.toNat) ++ ". ".toList
  else []

/-- tls.go:146-152 -/
def browserSentence (v : Int) : Str :=
  if 0 < v then "You may experience disruption in ".toList ++ asString v ++ ". ".toList
  else "Validity grace period expired ".toList ++ asString v ++ " ago, update now. ".toList

/-- tls.go:154-166 -/
def caSentence (i n : Nat) (serial : Str) (l : TlsLink) : Str :=
  '[' :: natToDec (i + 1) ++ '/' :: natToDec n ++ "] ".toList ++
  (if isRoot l.cert then "Root".toList else "Intermediate".toList) ++ " CA #".toList ++ serial ++
  " Common name [".toList ++ l.cert.subject.cn ++ "], signed by [".toList ++ l.cert.issuer.cn ++
  "], expires in ".toList ++ asString l.remainingValidity ++ ". ".toList

/-- tls.go:131-167: about one certificate; `now` is the clock of line 195. `none` is the panic of `formatSerial`. -/
def linkText (now : Int) (i n : Nat) (l : TlsLink) : Option Str :=
  (formatSerial l.cert.serial).map fun serial =>
    if l.isCA then caSentence i n serial l
    else leafSentence i n serial l ++ totalSentence l.cert ++ browserSentence (browserValidity l.cert now)

/-- tls.go:130-168: about the certificates from number `i` on. -/
def linkTexts (now : Nat → Int) (n : Nat) : Nat → List TlsLink → Option Str
  | _, [] => some []
  | i, l :: ls =>
    match linkText (now i) i n l, linkTexts now n (i + 1) ls with
    | some s, some t => some (s ++ t)
    | _, _ => none

/-- tls.go:128-168: the message of the report. -/
def certReport (now : Nat → Int) (links : List TlsLink) : Option Str :=
  (linkTexts now links.length 0 links).map fun t =>
    "Snapshot of your cert chain size ".toList ++ natToDec links.length ++ " explained. ".toList ++ t

end J8a
