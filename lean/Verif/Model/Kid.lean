import Verif.Go.Base64
import Verif.Go.JsonDecode
/-!
# proxy.go:680-702 — the key id of a token
-/
namespace J8a
open Go

/-- The entry of a key in the map that an object becomes: the last one counts. -/
def mapEntry (k : Str) (ms : List (Str × JTree)) : Option JTree :=
  (ms.reverse.find? fun m => m.1 = k).map Prod.snd

/-- proxy.go:680-702 `extractKid`. Decoding into a map is an error unless the text is an object or null. -/
def extractKid (fits : Str → Bool) (token : Str) : Str :=
  match b64Decode ((split '.' token).headD []) with
  | none => []
  | some decoded => match jsonDecode fits decoded with
    | some (.obj ms) => match mapEntry "kid".toList ms with
      | some (.str s) => s
      | _ => []
    | _ => []

end J8a
