import Verif.Basic

/-!
# Loading source files for just-in-time compilation

Models `interface/ceed-jit-tools.c` 27-61, 74-107, 124-296, 313-324, 339-350, 368-377 and 406-439. A string is the list of its characters without the
terminator; files do not contain the character zero. A pointer into a string is the rest of the string that begins there, and a difference of
pointers is the difference of the lengths. Opening and reading a file is a function `fs` from paths to contents that does not change meanwhile.
Allocation never fails and messages are left out. The stack is finite: `depth` calls fit on it, and one more is the outcome `ub`.
-/

namespace Verif
namespace Jit

/-- A C string. -/
abbrev Str := List Char

/-- `strchr`. -/
def strchr (s : Str) (c : Char) : Option Str :=
  match s with
  | [] => none
  | x :: t => if x = c then some (x :: t) else strchr t c

/-- The index of what `strrchr` returns. -/
def strrchr (s : Str) (c : Char) : Option Nat :=
  match s with
  | [] => none
  | x :: t =>
    match strrchr t c with
    | some i => some (i + 1)
    | none => if x = c then some 0 else none

/-! ## Paths -/

/-- Lines 96-98: the index of the last slash at or before `i`, or zero. -/
def backTo (s : Str) : Nat → Nat
  | 0 => 0
  | i + 1 => if s[i + 1]? = some '/' then i + 1 else backTo s i

/-- The loop of `CeedNormalizePath`, lines 77-105; the search for dots begins at index `b`. The number of iterations is bounded by the fuel,
which never runs out (`normalize_total`). -/
def normLoop : Nat → Str → Nat → Res Str
  | 0, _, _ => .ub
  | k + 1, s, b =>
    match strchr (s.drop b) '.' with
    | none => .ok s
    | some p =>
      let i := s.length - p.length
      if 0 < i ∧ 2 < p.length ∧ (s.drop (i - 1)).take 3 = "/./".toList then normLoop k (s.take i ++ s.drop (i + 2)) i
      else if 0 < i ∧ 3 < p.length ∧ (s.drop (i - 1)).take 4 = "/../".toList then
        -- `&first_dot[-2]` is before the array, and is read
        if i = 1 then .ub
        else
          let j := backTo s (i - 2)
          if j = 0 then .err .major else normLoop k (s.take j ++ s.drop (i + 2)) j
      else normLoop k s (i + 1)

/-- `CeedNormalizePath`, lines 74-107. -/
def normalize (s : Str) : Res Str := normLoop (2 * s.length + 1) s 0

/-- `CeedCheckFilePath`, lines 27-61: whether the file can be opened, leaving out what follows the last colon. -/
def checkFilePath (fs : Str → Option Str) (p : Str) : Bool :=
  match strrchr p ':' with
  | some i => (fs (p.take i)).isSome
  | none => (fs p).isSome

/-- `CeedPathConcatenate`, lines 368-377. -/
def pathConcatenate (base rel : Str) : Res Str :=
  match strrchr base '/' with
  | none => .ub
  | some i => .ok (base.take (i + 1) ++ rel)

/-- `CeedGetJitAbsolutePath`, lines 406-439, with the list of roots. -/
def absolutePath (fs : Str → Option Str) (rel : Str) : List Str → Res Str
  | [] => .err .major
  | root :: roots => do
    let p ← pathConcatenate root rel
    if checkFilePath fs p then .ok p else absolutePath fs rel roots

/-! ## Directives -/

/-- Lines 164-175: whether `#pragma` begins here. -/
def isPragma (hash : Str) : Bool :=
  match strchr hash 'm' with
  | none => false
  | some m =>
    let d := hash.length - m.length
    decide (5 ≤ d ∧ (hash.drop (d - 4)).take 6 = "pragma".toList) && ((hash.take (d - 5)).drop 1).all (· = ' ')

/-- Lines 195-205: whether `#include` begins here. If nothing is copied to `keyword` it holds six characters at most, which is not the word. -/
def isInclude (hash : Str) : Bool :=
  match strchr hash 'e' with
  | none => false
  | some e =>
    let d := hash.length - e.length
    decide (7 ≤ d ∧ (hash.drop (d - 6)).take 7 = "include".toList) && ((hash.take (d - 6)).drop 1).all (· = ' ')

/-- Lines 183-189, 208-214 and 267-270: append a line break and `n` characters to the buffer; the terminator takes the place of the last one. -/
def append (buf : Str) (from_ : Str) (n : Nat) : Str := (buf ++ '\n' :: from_.take n).take (buf.length + n)

/-- `q && (new_line - q > 0)`: the pointer is on this line. -/
def onLine (q : Option Str) (nl : Str) : Option Str :=
  match q with
  | some q => if nl.length < q.length then some q else none
  | none => none

/-- Lines 178-180: `once` follows on this line; `nl` is the next line break. -/
def isOnce (hash nl : Str) : Bool :=
  match onLine (strchr hash 'o') nl with
  | some o => "once".toList.isPrefixOf o
  | none => false

/-- Lines 176-192: a pragma. Returns the buffer and what follows `file_offset`. Without a line break after it, a null pointer is used. -/
def onPragma (hash off buf : Str) : Res (Str × Str) :=
  match strchr hash '\n' with
  | none => .ub
  | some nl =>
    let extra := if isOnce hash nl then 0 else hash.length - nl.length + 1
    if off.length + extra < hash.length then .ub
    else .ok (append buf off (off.length + extra - hash.length), nl.drop 1)

/-- The buffer, and the paths of the files that have been included. -/
structure St where
  buf : Str
  paths : List Str
  deriving DecidableEq

/-- Lines 220-222. -/
def isCeedHeader (l : Str) : Bool :=
  "<ceed/jit-source/".toList.isPrefixOf l || "<ceed/types.h>".toList.isPrefixOf l || "<ceed/ceed-f32.h>".toList.isPrefixOf l || "<ceed/ceed-f64.h>".toList.isPrefixOf l

/-- Lines 223-225. -/
def isStdHeader (l : Str) : Bool := "<std".toList.isPrefixOf l || "<math.h>".toList.isPrefixOf l || "<ceed".toList.isPrefixOf l

/-- Lines 232-239: the path of a local header. -/
def localPath (path quote : Str) : Res Str :=
  match strrchr path '/', strchr (quote.drop 1) '"' with
  | some i, some e => .ok (path.take (i + 1) ++ (quote.drop 1).take ((quote.drop 1).length - e.length))
  | _, _ => .ub

/-- Lines 240-249: the path of a header of the library. -/
def ceedPath (fs : Str → Option Str) (roots : List Str) (hash left : Str) : Res Str :=
  match strchr hash '>' with
  | none => .ub
  | some right =>
    if left.length < right.length + 1 then .ub else absolutePath fs ((left.drop 1).take (left.length - right.length - 1)) roots

/-- Lines 250-263: load the header unless it has been included. -/
def includeFile (load : Str → St → Res St) (incl : Str) (st : St) : Res St := do
  let p ← normalize incl
  if p ∈ st.paths then .ok st
  else do
    let st ← load p st
    .ok { st with paths := st.paths ++ [p] }

/-- Lines 206-273: an include directive. -/
def onInclude (fs : Str → Option Str) (roots : List Str) (load : Str → St → Res St) (path hash off : Str) (st : St) : Res (St × Str) :=
  match strchr hash '\n' with
  | none => .ub
  | some nl =>
    if off.length < hash.length then .ub
    else do
      let st : St := { st with buf := append st.buf off (off.length - hash.length) }
      let quote := onLine (strchr hash '"') nl
      let left := onLine (strchr hash '<') nl
      let st ←
        match quote, left with
        | some q, _ => do
          let p ← localPath path q
          includeFile load p st
        | none, some l =>
          if isCeedHeader l then do
            let p ← ceedPath fs roots hash l
            includeFile load p st
          else if isStdHeader l then .ok st
          else .ok { st with buf := append st.buf hash (hash.length - nl.length + 1) }
        | none, none => .ok { st with buf := append st.buf hash (hash.length - nl.length + 1) }
      .ok (st, nl.drop 1)

/-- Lines 163-192, at a `#`. -/
def atPragma (hash off : Str) (st : St) : Res (St × Str) :=
  if isPragma hash then do
    let r ← onPragma hash off st.buf
    .ok ({ st with buf := r.1 }, r.2)
  else .ok (st, off)

/-- Lines 194-273, at a `#`. -/
def atInclude (fs : Str → Option Str) (roots : List Str) (load : Str → St → Res St) (path hash off : Str) (st : St) : Res (St × Str) :=
  if isInclude hash then onInclude fs roots load path hash off st else .ok (st, off)

/-- Lines 160-276: the walk over the text; `off` is what follows `file_offset`. -/
def scan (fs : Str → Option Str) (roots : List Str) (load : Str → St → Res St) (path : Str) : Str → Str → St → Res (St × Str)
  | [], off, st => .ok (st, off)
  | x :: t, off, st =>
    if x = '#' then do
      let r ← atPragma (x :: t) off st
      let r ← atInclude fs roots load path (x :: t) r.2 r.1
      scan fs roots load path t r.2 r.1
    else scan fs roots load path t off st

/-- `CeedLoadSourceToInitializedBuffer`, lines 124-296. Reading a file without contents fails, as `fread` returns zero. -/
def load (fs : Str → Option Str) (roots : List Str) : Nat → Str → St → Res St
  | 0, _, _ => .ub
  | depth + 1, path, st =>
    match fs path with
    | none => .err .major
    | some src =>
      if src = [] then .err .major
      else do
        let (st, off) ← scan fs roots (load fs roots depth) path src src st
        .ok { st with buf := st.buf ++ '\n' :: off }

/-- `CeedLoadSourceToBuffer`, lines 339-350, with `CeedLoadSourceAndInitializeBuffer`, lines 313-324. -/
def loadToBuffer (fs : Str → Option Str) (roots : List Str) (depth : Nat) (path : Str) : Res Str := do
  let st ← load fs roots depth path ⟨[], []⟩
  .ok st.buf

end Jit
end Verif
