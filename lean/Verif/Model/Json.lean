import Verif.Spec.Json
/-!
# JSON documents: libmseed/yyjson.c

Access by pointer and merging.  Values are trees (`Verif.Spec.Json.Json`); the circular lists of the mutable
form and the arrays of the immutable form are lists of elements or of members, in order.  The functions for
both forms do the same (yyjson.c:1946-1974 and 1988-2037) and are one here; copies between
them (1432-1740) are the same tree.  Memory is always available.
-/
namespace Verif.Model.Json
open Verif.Spec.Json (Json)

/-- A token as it is in the pointer: its characters with the escapes, its length without them and
the number of escapes. -/
structure Tok where
  raw : List UInt8
  len : Nat
  esc : Nat
deriving DecidableEq, Repr

/-- yyjson.c:1857: the characters up to a `/` or `~`, and the rest. -/
def plain : List UInt8 → List UInt8 × List UInt8
  | [] => ([], [])
  | c :: t => if c ≠ 47 ∧ c ≠ 126 then (c :: (plain t).1, (plain t).2) else ([], c :: t)

/-- yyjson.c:1866-1875: the characters up to a `/`, the number of escapes and the rest; `none` for an escape
that is none. -/
def escaped : List UInt8 → Option (List UInt8 × Nat × List UInt8)
  | [] => some ([], 0, [])
  | c :: t =>
    if c = 47 then some ([], 0, c :: t)
    else if c = 126 then
      match t with
      | [] => none
      | d :: u =>
        if d ≠ 48 ∧ d ≠ 49 then none
        else match escaped (d :: u) with
          | none => none
          | some (r, n, rest) => some (c :: r, n + 1, rest)
    else match escaped t with
      | none => none
      | some (r, n, rest) => some (c :: r, n, rest)

/-- yyjson.c:1852-1880 `ptr_next_token`: the next token and the rest of the pointer, which is at a `/`. -/
def nextToken (ptr : List UInt8) : Option (Tok × List UInt8) :=
  let hdr := ptr.tail
  let (skipped, cur) := plain hdr
  if cur.head? ≠ some 126 then some (⟨skipped, skipped.length, 0⟩, cur)
  else match escaped cur with
    | none => none
    | some (r, n, rest) => some (⟨skipped ++ r, (skipped ++ r).length - n, n⟩, rest)

/-- yyjson.c:1900-1902: the digits at the head, added to a number, and the rest. -/
def digits (num : Nat) : List UInt8 → Nat × List UInt8
  | [] => (num, [])
  | c :: t => if (c - 48).toNat ≤ 9 then digits (num * 10 + (c - 48).toNat) t else (num, c :: t)

/-- yyjson.c:1889-1906 `ptr_token_to_idx`; the index of the place after the last (`-`) is `none`
within `some`. -/
def toIdx (t : Tok) : Option (Option Nat) :=
  let s := t.raw.take t.len
  if s.length = 0 ∨ t.len > 19 then none
  else if s.head? = some 48 then (if t.len > 1 then none else some (some 0))
  else if s.head? = some 45 then (if t.len > 1 then none else some none)
  else
    let (num, rest) := digits 0 s
    if num = 0 ∨ rest ≠ [] then none else some (some num)

/-- yyjson.c:1924-1930: does the name have these characters?  The lengths agree. -/
def sameEscaped : List UInt8 → List UInt8 → Bool
  | [], _ => true
  | c :: str, t :: token =>
    if t = 126 then
      match token with
      | u :: token => if c ≠ (if u = 48 then 126 else 47) then false else sameEscaped str token
      | [] => false
    else if c ≠ t then false else sameEscaped str token
  | _ :: _, [] => false

/-- yyjson.c:1916-1933 `ptr_token_eq` -/
def tokenEq (key : List UInt8) (t : Tok) : Bool :=
  if key.length ≠ t.len then false
  else if t.esc = 0 then decide (key = t.raw.take t.len)
  else sameEscaped key t.raw

/-- yyjson.c:1943-1957 `ptr_arr_get`, 1988-2007 `ptr_mut_arr_get`: the index of the element. -/
def arrGet (l : List Json) (t : Tok) : Option Nat :=
  if l.length = 0 then none
  else match toIdx t with
    | some (some i) => if i ≥ l.length then none else some i
    | _ => none

/-- yyjson.c:1967-1976 `ptr_obj_get`, 2018-2034 `ptr_mut_obj_get` -/
def objGet (t : Tok) : List (List UInt8 × Json) → Option Json
  | [] => none
  | (k, v) :: l => if tokenEq k t then some v else objGet t l

/-- yyjson.c:2056-2060: the characters without escapes. -/
def unescape : List UInt8 → List UInt8
  | [] => []
  | c :: t =>
    if c ≠ 126 then c :: unescape t
    else match t with
      | [] => []
      | d :: u => (if d = 48 then 126 else 47) :: unescape u

/-- yyjson.c:2044-2064 `ptr_new_key` -/
def newKey (t : Tok) : List UInt8 :=
  if t.esc = 0 then t.raw.take t.len else (unescape (t.raw.take (t.len + t.esc))).take t.len

/-- yyjson.c:2084-2104 `unsafe_yyjson_ptr_getx`, 2108-2142 `unsafe_yyjson_mut_ptr_getx`.  The first argument
bounds the number of tokens. -/
def getx : Nat → Json → List UInt8 → Option Json
  | 0, _, _ => none
  | fuel + 1, v, ptr =>
    match nextToken ptr with
    | none => none
    | some (t, rest) =>
      match (match v with
        | .obj l => objGet t l
        | .arr l => (arrGet l t).bind fun i => l[i]?
        | _ => none) with
      | none => none
      | some v => if rest = [] then some v else getx fuel v rest

/-- yyjson.h:7107-7138 `yyjson_doc_ptr_get`, 7171-7205 `yyjson_mut_doc_ptr_get`; a document may have no root. -/
def docGet (root : Option Json) (ptr : List UInt8) : Option Json :=
  match root with
  | none => none
  | some v =>
    if ptr = [] then some v
    else if ptr.head? ≠ some 47 then none
    else getx ptr.length v ptr

/-- yyjson.h:6726-6750 `yyjson_mut_obj_put` with a name that is there: the value of the first member with the
name is replaced, others with the name are removed. -/
def objPut (k : List UInt8) (v : Json) : List (List UInt8 × Json) → List (List UInt8 × Json)
  | [] => []
  | (k', w) :: l => if k' = k then (k', v) :: l.filter (fun y => decide (y.1 ≠ k)) else (k', w) :: objPut k v l

/-- yyjson.c:2018-2034: the name of the member found. -/
def foundKey (t : Tok) : List (List UInt8 × Json) → List UInt8
  | [] => []
  | (k, _) :: l => if tokenEq k t then k else foundKey t l

/-- The value of the member found, changed in its place. -/
def inMember (t : Tok) (w : Json) : List (List UInt8 × Json) → List (List UInt8 × Json)
  | [] => []
  | (k, v) :: l => if tokenEq k t then (k, w) :: l else (k, v) :: inMember t w l

/-- yyjson.c:2200-2222 and 2225-2234: new objects for the rest of the pointer, the value in the last. -/
def create : Nat → List UInt8 → Json → Option Json
  | 0, _, _ => none
  | fuel + 1, ptr, v =>
    match nextToken ptr with
    | none => none
    | some (t, rest) =>
      if rest = [] then some (.obj [(newKey t, v)])
      else (create fuel rest v).map fun w => .obj [(newKey t, w)]

/-- yyjson.c:2144-2281 `unsafe_yyjson_mut_ptr_putx` with `create_parent` and without `insert_new`: the changed
value, or `none` if it returns false; new objects are attached at the end only, so that nothing has changed
then. -/
def putx : Nat → Json → List UInt8 → Json → Option Json
  | 0, _, _, _ => none
  | fuel + 1, v, ptr, new =>
    match nextToken ptr with
    | none => none
    | some (t, rest) =>
      match v with
      | .obj l =>
        match objGet t l with
        | none =>
          if rest = [] then some (.obj (l ++ [(newKey t, new)]))
          else (create fuel rest new).map fun w => .obj (l ++ [(newKey t, w)])
        | some w =>
          if rest = [] then some (.obj (objPut (foundKey t l) new l))
          else (putx fuel w rest new).map fun w => .obj (inMember t w l)
      | .arr l =>
        match arrGet l t with
        | none => none
        | some i =>
          if rest = [] then some (.arr (l.set i new))
          else (l[i]?.bind fun w => putx fuel w rest new).map fun w => .arr (l.set i w)
      | _ => none

/-- yyjson.h:7345-7404 `yyjson_mut_doc_ptr_set` with a value: the new root, or `none` if it returns false. -/
def docSet (root : Option Json) (ptr : List UInt8) (new : Json) : Option Json :=
  if ptr = [] then some new
  else if ptr.head? ≠ some 47 then none
  else putx ptr.length (root.getD (.obj [])) ptr new

/-- yyjson.c:2283-2302 `unsafe_yyjson_mut_ptr_replacex` -/
def replacex : Nat → Json → List UInt8 → Json → Option Json
  | 0, _, _, _ => none
  | fuel + 1, v, ptr, new =>
    match nextToken ptr with
    | none => none
    | some (t, rest) =>
      match v with
      | .obj l =>
        match objGet t l with
        | none => none
        | some w =>
          if rest = [] then some (.obj (objPut (foundKey t l) new l))
          else (replacex fuel w rest new).map fun w => .obj (inMember t w l)
      | .arr l =>
        match arrGet l t with
        | none => none
        | some i =>
          if rest = [] then some (.arr (l.set i new))
          else (l[i]?.bind fun w => replacex fuel w rest new).map fun w => .arr (l.set i w)
      | _ => none

/-- yyjson.h:7451-7492 `yyjson_mut_doc_ptr_replace`: the new root, or `none` if it returns NULL. -/
def docReplace (root : Option Json) (ptr : List UInt8) (new : Json) : Option Json :=
  match root with
  | none => none
  | some v =>
    if ptr = [] then some new
    else if ptr.head? ≠ some 47 then none
    else replacex ptr.length v ptr new

/-- yyjson.h:6116-6133 `yyjson_mut_arr_append` to the value found by 2108-2142 `unsafe_yyjson_mut_ptr_getx`, in its
place; `none` if there is no array. -/
def appendx : Nat → Json → List UInt8 → Json → Option Json
  | 0, _, _, _ => none
  | fuel + 1, v, ptr, new =>
    match nextToken ptr with
    | none => none
    | some (t, rest) =>
      match v with
      | .obj l =>
        match objGet t l with
        | none => none
        | some w =>
          if rest = [] then
            match w with
            | .arr a => some (.obj (inMember t (.arr (a ++ [new])) l))
            | _ => none
          else (appendx fuel w rest new).map fun w => .obj (inMember t w l)
      | .arr l =>
        match arrGet l t with
        | none => none
        | some i =>
          if rest = [] then
            match l[i]? with
            | some (.arr a) => some (.arr (l.set i (.arr (a ++ [new]))))
            | _ => none
          else (l[i]?.bind fun w => appendx fuel w rest new).map fun w => .arr (l.set i w)
      | _ => none

/-- yyjson.h:6450-6463 `yyjson_mut_obj_getn`: the first member with the name. -/
def getn (k : List UInt8) : List (List UInt8 × Json) → Option Json
  | [] => none
  | (k', v) :: l => if k' = k then some v else getn k l

/-- The members of what is there, none if it is not an object: yyjson.c:2727-2731. -/
def membersOf : Option Json → List (List UInt8 × Json)
  | some (.obj l) => l
  | _ => []

mutual
/-- yyjson.c:2712-2762 `yyjson_mut_merge_patch` -/
def mergePatch (orig : Option Json) : Json → Json
  | .obj pl =>
    .obj ((membersOf orig).filter (fun y => (getn y.1 pl).isNone) ++ mergeMembers (membersOf orig) pl)
  | .null => .null
  | .bool b => .bool b
  | .int i => .int i
  | .real d => .real d
  | .str s => .str s
  | .arr l => .arr l

/-- yyjson.c:2747-2759: the members of the patch. -/
def mergeMembers (ol : List (List UInt8 × Json)) : List (List UInt8 × Json) → List (List UInt8 × Json)
  | [] => []
  | (_, .null) :: pl => mergeMembers ol pl
  | (k, p) :: pl => (k, mergePatch (getn k ol) p) :: mergeMembers ol pl
end

end Verif.Model.Json
