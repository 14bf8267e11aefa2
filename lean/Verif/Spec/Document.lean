import Verif.Go.Unmarshal
import Verif.Model.Config
/-!
# What an operator writes

`Settings` is a configuration as an operator means it; `Settings.Written` tells the documents that write it
down: keys as in the documentation (see j8acfg.yml in the repository) in any order and in upper or lower case,
values of the right type, and what is empty or zero may be left out.
-/
namespace J8a
open Go

/-- A jwt entry as meant. -/
structure JwtSettings where
  alg : Str := []
  key : Str := []
  jwksUrl : Str := []
  acceptableSkewSeconds : Str := []
deriving DecidableEq

/-- A server as meant. -/
structure ServerSettings where
  labels : List Str := []
  scheme : Str := []
  host : Str := []
  port : Nat := 0
deriving DecidableEq

/-- A route as meant. -/
structure RouteSettings where
  path : Str := []
  transform : Str := []
  resource : Str := []
  policy : Str := []
  jwt : Str := []
deriving DecidableEq

/-- A configuration as meant. Names of policies, jwt entries and resources are in the order in which they
are written. -/
structure Settings where
  policies : List (Str × List LabelWeight) := []
  routes : List RouteSettings := []
  jwt : List (Str × JwtSettings) := []
  resources : List (Str × List ServerSettings) := []
  connection : Connection := {}

/-- One key of an object: its name, what may be written there, and when it may be left out. -/
structure Item where
  key : String
  writes : JVal → Prop
  absent : Prop

/-- An object with the given keys: each key is written once, in upper or lower case, or left out if it may
be; and there are no other keys. -/
def Object (items : List Item) (v : JVal) : Prop :=
  ∃ kvs, v = .obj kvs ∧ (kvs.map fun kv => toLower kv.1).Nodup ∧
    (∀ kv ∈ kvs, ∃ i ∈ items, toLower kv.1 = toLower i.key.toList) ∧
    ∀ i ∈ items, (∃ kv ∈ kvs, toLower kv.1 = toLower i.key.toList ∧ i.writes kv.2) ∨
      (i.absent ∧ ∀ kv ∈ kvs, toLower kv.1 ≠ toLower i.key.toList)

/-- Two lists, one by one. -/
inductive Each {α β : Type} (w : α → β → Prop) : List α → List β → Prop
  | nil : Each w [] []
  | cons {a b l m} : w a b → Each w l m → Each w (a :: l) (b :: m)

def WritesStr (s : Str) (v : JVal) : Prop := v = .str s

/-- An integer is written without fraction and exponent. -/
def WritesInt (i : Int) (v : JVal) : Prop := ∃ nearest, v = .num (some i) nearest

/-- A weight is written as a number whose nearest float64 it is. -/
def WritesWeight (w : Int) (v : JVal) : Prop := ∃ int, v = .num int w

def WritesBool (b : Bool) (v : JVal) : Prop := v = .bool b

def WritesList {α : Type} (w : α → JVal → Prop) (l : List α) (v : JVal) : Prop :=
  ∃ vs, v = .arr vs ∧ Each w l vs

/-- Names with values; each name once. -/
def WritesMap {α : Type} (w : α → JVal → Prop) (l : List (Str × α)) (v : JVal) : Prop :=
  (l.map Prod.fst).Nodup ∧ ∃ kvs, v = .obj kvs ∧ Each (fun e kv => kv.1 = e.1 ∧ w e.2 kv.2) l kvs

def strItem (key : String) (s : Str) : Item := ⟨key, WritesStr s, s = []⟩

/-- A 64 bit integer. -/
def intItem (key : String) (i : Int) : Item :=
  ⟨key, fun v => WritesInt i v ∧ -(2 ^ 63) ≤ i ∧ i < 2 ^ 63, i = 0⟩

def LabelWeight.Written (w : LabelWeight) : JVal → Prop :=
  Object [strItem "label" w.label, ⟨"weight", WritesWeight w.weight, w.weight = 0⟩]

def RouteSettings.Written (r : RouteSettings) : JVal → Prop :=
  Object [strItem "path" r.path, strItem "transform" r.transform, strItem "resource" r.resource,
    strItem "policy" r.policy, strItem "jwt" r.jwt]

def JwtSettings.Written (j : JwtSettings) : JVal → Prop :=
  Object [strItem "alg" j.alg, strItem "key" j.key, strItem "jwksUrl" j.jwksUrl,
    strItem "acceptableSkewSeconds" j.acceptableSkewSeconds]

def ServerSettings.Written (m : ServerSettings) : JVal → Prop :=
  Object [⟨"labels", WritesList WritesStr m.labels, m.labels = []⟩,
    ⟨"url", Object [strItem "scheme" m.scheme, strItem "host" m.host,
      ⟨"port", fun v => WritesInt m.port v ∧ m.port ≤ 65535, m.port = 0⟩],
      m.scheme = [] ∧ m.host = [] ∧ m.port = 0⟩]

def Downstream.Written (d : Downstream) : JVal → Prop :=
  Object [intItem "readTimeoutSeconds" d.readTimeoutSeconds,
    intItem "roundTripTimeoutSeconds" d.roundTripTimeoutSeconds,
    intItem "idleTimeoutSeconds" d.idleTimeoutSeconds, intItem "maxBodyBytes" d.maxBodyBytes,
    strItem "mode" d.mode, intItem "port" d.port, strItem "cert" d.cert, strItem "key" d.key]

def Upstream.Written (u : Upstream) : JVal → Prop :=
  Object [intItem "poolSize" u.poolSize, intItem "idleTimeoutSeconds" u.idleTimeoutSeconds,
    intItem "socketTimeoutSeconds" u.socketTimeoutSeconds,
    intItem "readTimeoutSeconds" u.readTimeoutSeconds, intItem "maxAttempts" u.maxAttempts,
    ⟨"tlsInsecureSkipVerify", WritesBool u.tlsInsecureSkipVerify, u.tlsInsecureSkipVerify = false⟩]

def Connection.Written (c : Connection) : JVal → Prop :=
  Object [⟨"downstream", c.downstream.Written, c.downstream = {}⟩,
    ⟨"upstream", c.upstream.Written, c.upstream = {}⟩]

def Settings.Written (s : Settings) : JVal → Prop :=
  Object [⟨"policies", WritesMap (WritesList LabelWeight.Written) s.policies, s.policies = []⟩,
    ⟨"routes", WritesList RouteSettings.Written s.routes, s.routes = []⟩,
    ⟨"jwt", WritesMap JwtSettings.Written s.jwt, s.jwt = []⟩,
    ⟨"resources", WritesMap (WritesList ServerSettings.Written) s.resources, s.resources = []⟩,
    ⟨"connection", s.connection.Written, s.connection = {}⟩]

end J8a
