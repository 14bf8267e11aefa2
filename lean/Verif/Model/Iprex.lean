import Verif.Go.Rex
/-!
# iprex.go — finding the client address in a message
-/
namespace J8a.Iprex
open Rex

/-- `[0-9a-fA-F]` -/
def hexChars : List Char := "0123456789abcdefABCDEF".toList
/-- `[0-9]` -/
def digits : List Char := "0123456789".toList
/-- `[0-9a-zA-Z]` -/
def alnum : List Char := "0123456789abcdefghijklmnopqrstuvwxyzABCDEFGHIJKLMNOPQRSTUVWXYZ".toList

/-- A literal character. -/
def ch (c : Char) : Rex := cls [c]

/-- `[0-9a-fA-F]{1,4}` -/
def h14 : Rex := rep (cls hexChars) 1 4
/-- `[0-9a-fA-F]{1,4}:` -/
def hc : Rex := seq h14 (ch ':')
/-- `:[0-9a-fA-F]{1,4}` -/
def colh : Rex := seq (ch ':') h14

/-- `(25[0-5]|(2[0-4]|1{0,1}[0-9]){0,1}[0-9])` -/
def octet : Rex :=
  alt (seq (ch '2') (seq (ch '5') (cls "012345".toList)))
    (seq (rep (alt (seq (ch '2') (cls "01234".toList)) (seq (rep (ch '1') 0 1) (cls digits))) 0 1)
      (cls digits))

/-- `(octet\.){3,3}octet` -/
def quad : Rex := seq (rep (seq octet (ch '.')) 3 3) octet

/-- iprex.go:35, `ipv4`. -/
def ipv4 : Rex := quad

/-- iprex.go:31, `ipv64e`: `(:{0,2})(hc){1,6}(:{0,1})quad`. -/
def ipv64e : Rex :=
  seq (rep (ch ':') 0 2) (seq (rep hc 1 6) (seq (rep (ch ':') 0 1) quad))

/-- iprex.go:23, `ipv6s`. -/
def ipv6s : Rex := seq (rep hc 1 4) (rep colh 1 3)

/-- `fe80:(:[0-9a-fA-F]{0,4}){0,4}%[0-9a-zA-Z]{1,}` -/
def linkLocal : Rex :=
  seq (ch 'f') (seq (ch 'e') (seq (ch '8') (seq (ch '0') (seq (ch ':')
    (seq (rep (seq (ch ':') (rep (cls hexChars) 0 4)) 0 4)
      (seq (ch '%') (seq (cls alnum) (star alnum))))))))

/-- `::(ffff(:0{1,4}){0,1}:){0,1}quad` -/
def mapped : Rex :=
  seq (ch ':') (seq (ch ':')
    (seq (rep (seq (ch 'f') (seq (ch 'f') (seq (ch 'f') (seq (ch 'f')
        (seq (rep (seq (ch ':') (rep (ch '0') 1 4)) 0 1) (ch ':')))))) 0 1)
      quad))

/-- iprex.go:27, `ipv6`: twelve alternatives. -/
def ipv6 : Rex :=
  alt (seq (rep hc 7 7) h14)
  (alt (seq (rep hc 1 7) (ch ':'))
  (alt (seq (rep hc 1 6) colh)
  (alt (seq (rep hc 1 5) (rep colh 1 2))
  (alt (seq (rep hc 1 4) (rep colh 1 3))
  (alt (seq (rep hc 1 3) (rep colh 1 4))
  (alt (seq (rep hc 1 2) (rep colh 1 5))
  (alt (seq hc (rep colh 1 6))
  (alt (seq (ch ':') (alt (rep colh 1 7) (ch ':')))
  (alt linkLocal
  (alt mapped
       (seq (rep hc 1 4) (seq (ch ':') quad))))))))))))

/-- iprex.go:20-58 `extractAddr`: the first expression that matches decides. (The expressions are
compiled on first use; that does not change the result.) -/
def extractAddr (msg : Str) : Str :=
  match ipv64e.find msg with
  | some m => m
  | none =>
    match ipv6s.find msg with
    | some m => m
    | none =>
      match ipv6.find msg with
      | some m => m
      | none =>
        match ipv4.find msg with
        | some m => m
        | none => "not found".toList

end J8a.Iprex
