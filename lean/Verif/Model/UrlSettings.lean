import Verif.Model.Options
/-!
# Settings of requests for URLs (msio.c:625-763 with `LIBMSEED_URL`)

libcurl is the environment: it copies the texts given to it, and its functions fail if memory is lacking.
-/
namespace Verif.Model.UrlSettings
open Verif.Model.Options (lit)

/-- msio.c:38-42 `gCURLheaders` (`[]` is NULL) and `gCURLeasy` (`none` is NULL) with its
`CURLOPT_USERPWD`. -/
structure Globals where
  headers : List (List UInt8) := []
  easy : Option (Option (List UInt8)) := none
deriving DecidableEq, Repr

/-- msio.c:716-743 `msio_url_addheader`: `none` is NULL, `memory` tells whether `curl_slist_append`
succeeds. -/
def addheader (header : Option (List UInt8)) (memory : Bool) (g : Globals) : Int × Globals :=
  match header with
  | none => (-1, g)
  | some h => if memory then (0, { g with headers := g.headers ++ [h] }) else (-1, g)

/-- msio.c:653-657: the text before it is cut; `curl` is `LIBCURL_VERSION`, the version of the library is
libmseed.h:31. -/
def agentText (curl program : List UInt8) (version : Option (List UInt8)) : List UInt8 :=
  lit "User-Agent: " ++ program ++ (match version with | some v => 47 :: v | none => []) ++
    lit " libmseed/3.1.2 libcurl/" ++ curl

/-- msio.c:636-663 `msio_url_useragent`: the buffer has 1024 bytes. -/
def useragent (curl : List UInt8) (program version : Option (List UInt8)) (memory : Bool) (g : Globals) :
    Int × Globals :=
  match program with
  | none => (-1, g)
  | some p => addheader (some ((agentText curl p version).take 1023)) memory g

/-- msio.c:674-705 `msio_url_userpassword`: `init` tells whether `curl_easy_init` succeeds, `auth` and
`memory` whether the options can be set (one that cannot stays as it was). -/
def userpassword (up : Option (List UInt8)) (init auth memory : Bool) (g : Globals) : Int × Globals :=
  match up with
  | none => (-1, g)
  | some u =>
    match (if g.easy = none ∧ init = true then some none else g.easy) with
    | none => (-1, g)
    | some e =>
      if auth = true ∧ memory = true then (0, { g with easy := some (some u) })
      else (-1, { g with easy := some e })

/-- msio.c:750-763 `msio_url_freeheaders` -/
def freeheaders (g : Globals) : Globals := { g with headers := [] }

/-- What is set for a request: the headers of its own, and user and password. -/
structure Request where
  agent : List UInt8
  headers : List (List UInt8)
  login : Option (List UInt8)
deriving DecidableEq, Repr

/-- msio.c:233, 265-270, 360-364: the options of the handle of a request.  (libcurl sends the default agent
unless there is a header of that name.) -/
def request (curl : List UInt8) (g : Globals) : Request where
  agent := lit "libmseed/3.1.2 libcurl/" ++ curl
  headers := g.headers
  login := g.easy.getD none

/-- The calls of a program with what libcurl does. -/
inductive Op where
  | addheader (header : Option (List UInt8)) (memory : Bool)
  | useragent (program version : Option (List UInt8)) (memory : Bool)
  | userpassword (up : Option (List UInt8)) (init auth memory : Bool)
  | freeheaders
deriving DecidableEq, Repr

/-- fileutils.c:768-851: the functions of the library call those of msio.c. -/
def step (curl : List UInt8) : Op → Globals → Int × Globals
  | .addheader h m, g => addheader h m g
  | .useragent p v m, g => useragent curl p v m g
  | .userpassword u i a m, g => userpassword u i a m g
  | .freeheaders, g => (0, freeheaders g)

/-- Calls one after the other: what they return and the settings after them. -/
def run (curl : List UInt8) : List Op → Globals → List Int × Globals
  | [], g => ([], g)
  | op :: ops, g =>
    match step curl op g with
    | (r, g) => match run curl ops g with | (rs, g) => (r :: rs, g)

end Verif.Model.UrlSettings
