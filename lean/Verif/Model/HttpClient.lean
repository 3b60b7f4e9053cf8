import Mathlib.Data.List.Basic

/-
Model of `web/client/src/util/HttpClient.ts`.

Texts are lists of code units (`Nat`) where they are encoded by `btoa`, and lists of characters elsewhere. A JavaScript exception is `none`. `Headers` is modelled after the Fetch standard: names are compared
without case and `set` leaves one value for the name. Not modelled: the check of names and values for characters that
`Headers` refuses, `devMode` (HttpClient.ts:55-68; it logs and gives the same result), the network: the response is an
argument. JSON documents are modelled without their text: `Json` stands for the text of the document as well.
-/

namespace Soro.HttpClient

/-- JavaScript values that can be sent -/
inductive Json where
  | null
  | bool (b : Bool)
  | num (n : Int)
  | str (s : List Char)
  | arr (l : List Json)
  | obj (fields : List (List Char × Json))

/-- `body ? … : undefined`: ToBoolean of the language -/
def Json.truthy : Json → Bool
  | .null => false
  | .bool b => b
  | .num n => n != 0
  | .str s => !s.isEmpty
  | .arr _ => true
  | .obj _ => true

/-- names of headers are compared without case -/
def lower (s : List Char) : List Char := s.map Char.toLower

/-- `Headers` of the Fetch standard, names in lower case -/
abbrev Headers := List (List Char × List Char)

/-- `Headers.get` -/
def Headers.get (h : Headers) (name : List Char) : Option (List Char) :=
  (h.find? fun e => e.1 == lower name).map Prod.snd

/-- `Headers.set` -/
def Headers.set (h : Headers) (name value : List Char) : Headers :=
  h.filter (fun e => e.1 != lower name) ++ [(lower name, value)]

/-- HttpClient.ts:4-5; `headers` is `none` for the plain object `{}` of line 9, which has neither `set` nor `get` -/
structure Client where
  base : List Char
  headers : Option Headers

/-- HttpClient.ts:7-10 -/
def Client.create (base : List Char) (headers : Option Headers) : Client := ⟨base, headers⟩

/-- HttpClient.ts:45-48; `none`: `set` is not a function -/
def Client.setHeader (c : Client) (name value : List Char) : Option Client :=
  c.headers.map fun h => { c with headers := some (h.set name value) }

/-- HttpClient.ts:50-52 -/
def Client.getHeader (c : Client) (name : List Char) : Option (Option (List Char)) :=
  c.headers.map fun h => h.get name

/-- the alphabet of `btoa` (RFC 4648) -/
def b64Char (n : Nat) : Char :=
  if n < 26 then Char.ofNat (65 + n)
  else if n < 52 then Char.ofNat (97 + (n - 26))
  else if n < 62 then Char.ofNat (48 + (n - 52))
  else if n = 62 then '+' else '/'

/-- `btoa` of bytes -/
def b64 : List Nat → List Char
  | [] => []
  | [a] => [b64Char (a / 4), b64Char (a % 4 * 16), '=', '=']
  | [a, b] => [b64Char (a / 4), b64Char (a % 4 * 16 + b / 16), b64Char (b % 16 * 4), '=']
  | a :: b :: c :: r =>
    b64Char (a / 4) :: b64Char (a % 4 * 16 + b / 16) :: b64Char (b % 16 * 4 + c / 64) :: b64Char (c % 64) :: b64 r

/-- `btoa`; `none`: a character outside of Latin-1 -/
def btoa (s : List Nat) : Option (List Char) := if s.all (· < 256) then some (b64 s) else none

/-- HttpClient.ts:54-60 -/
def Client.setBasicAuth (c : Client) (username password : List Nat) : Option Client :=
  match btoa username, btoa password with
  | some u, some p => c.setHeader "Authorization".toList ("Basic ".toList ++ u ++ [':'] ++ p)
  | _, _ => none

/-- HttpClient.ts:62-65 -/
def Client.setBearerAuth (c : Client) (token : List Char) : Option Client :=
  c.setHeader "Authorization".toList ("Bearer ".toList ++ token)

inductive Method where
  | get | post | put | delete
deriving DecidableEq, Repr

/-- the parts of `RequestInit` modelled: the headers and the body a caller may pass with the call -/
structure Options where
  headers : Option Headers := none
  body : Option Json := none

/-- what `fetch` is called with -/
structure Request where
  url : List Char
  method : Method
  headers : Headers
  body : Option Json

/-- HttpClient.ts:12-19: the headers of the options are replaced -/
def Client.request (c : Client) (endpoint : List Char) (options : Options) (method : Method) : Request :=
  ⟨c.base ++ endpoint, method, c.headers.getD [], options.body⟩

/-- HttpClient.ts:77, 85 -/
def bodyOf (body : Json) : Option Json := if body.truthy then some body else none

/-- HttpClient.ts:67-72 -/
def Client.get (c : Client) (endpoint : List Char) (options : Options) : Request := c.request endpoint options .get

/-- HttpClient.ts:74-80 -/
def Client.post (c : Client) (endpoint : List Char) (body : Json) (options : Options) : Request :=
  c.request endpoint { options with body := bodyOf body } .post

/-- HttpClient.ts:82-88 -/
def Client.put (c : Client) (endpoint : List Char) (body : Json) (options : Options) : Request :=
  c.request endpoint { options with body := bodyOf body } .put

/-- HttpClient.ts:90-95 -/
def Client.delete (c : Client) (endpoint : List Char) (options : Options) : Request := c.request endpoint options .delete

/-- a response; `body` is the document, `none` if its text is not JSON -/
structure Response where
  status : Nat
  statusText : List Char
  body : Option Json

/-- what the promise gives -/
inductive Outcome where
  | value (j : Json)
  | failed (message : List Char)
  | syntaxError

/-- `Response.ok` of the Fetch standard -/
def Response.ok (r : Response) : Bool := 200 ≤ r.status && r.status ≤ 299

/-- HttpClient.ts:21-26 -/
def answer (r : Response) : Outcome :=
  if !r.ok || r.status == 204 then .failed r.statusText
  else match r.body with
    | some j => .value j
    | none => .syntaxError

/-- the calls that change the headers -/
inductive Op where
  | header (name value : List Char)
  | basic (username password : List Nat)
  | bearer (token : List Char)

def Client.op (c : Client) : Op → Option Client
  | .header n v => c.setHeader n v
  | .basic u p => c.setBasicAuth u p
  | .bearer t => c.setBearerAuth t

/-- a sequence of calls -/
def Client.ops : Client → List Op → Option Client
  | c, [] => some c
  | c, o :: os => (c.op o).bind fun c' => c'.ops os

end Soro.HttpClient
