import Verif.Model.Sim

/-!
# `load_model_file`

The input is the text of the file; opening and decoding the file is not modelled.
-/

namespace NTM

/-- the characters at which `str.splitlines` splits -/
def isLineBreak (c : Char) : Bool :=
  c = '\n' || c = '\r' || c = '\x0b' || c = '\x0c' || c = '\x1c' || c = '\x1d' || c = '\x1e' ||
    c = '\u0085' || c = '\u2028' || c = '\u2029'

/-- `str.splitlines()` on characters, the current line being accumulated; `cr` says that the last
character was a carriage return, so that a following newline belongs to the same line end -/
def splitLinesAux : List Char → Bool → List Char → List (List Char)
  | [], _, cur => if cur = [] then [] else [cur]
  | c :: cs, cr, cur =>
    if cr ∧ c = '\n' then splitLinesAux cs false cur
    else if isLineBreak c then cur :: splitLinesAux cs (c = '\r') []
    else splitLinesAux cs false (cur ++ [c])

/-- `data.splitlines()` (`pyNTM/performance_model.py:1074-1077`, `pyNTM/flex_model.py:1846-1849`).
Opening in text mode first turns `\r\n` and `\r` into `\n`, which gives the same lines. -/
def splitLines (text : String) : List String :=
  (splitLinesAux text.toList false []).map String.ofList

/-- `str.split("\t")` on characters: the fields, the last one being accumulated -/
def splitTabAux : List Char → List Char → List (List Char)
  | [], cur => [cur]
  | c :: cs, cur => if c = '\t' then cur :: splitTabAux cs [] else splitTabAux cs (cur ++ [c])

/-- `line.split("\t")` -/
def splitTab (line : String) : List String := (splitTabAux line.toList []).map String.ofList

/-- value of a decimal digit -/
def digitVal (c : Char) : Option ℕ :=
  if '0'.toNat ≤ c.toNat ∧ c.toNat ≤ '9'.toNat then some (c.toNat - '0'.toNat) else none

/-- value of a string of digits, most significant first -/
def digitsVal : List Char → ℕ → Option ℕ
  | [], acc => some acc
  | c :: cs, acc =>
    match digitVal c with
    | some d => digitsVal cs (10 * acc + d)
    | none => none

/-- Python's `int(s)` and `float(s)` on strings, as the loader calls them
(`pyNTM/performance_model.py:1203-1209`, `pyNTM/master_model.py:520-529,573,594-600`); `none` is
`ValueError`.  The loader is modelled for every such pair of functions, so nothing depends on
which spellings of numbers Python accepts.  Simplification: `float` gives a rational, so `"nan"`
and `"inf"` are outside the model. -/
structure Reader where
  int : String → Option ℤ
  float : String → Option ℚ

/-- `int(s)` on plain decimal numbers: optional sign and digits.  Simplification: the surrounding
white space and the underscores Python also accepts are rejected. -/
def parseInt (s : String) : Option ℤ :=
  match s.toList with
  | [] => none
  | '-' :: cs => if cs = [] then none else (digitsVal cs 0).map fun n => -(n : ℤ)
  | '+' :: cs => if cs = [] then none else (digitsVal cs 0).map fun n => (n : ℤ)
  | cs => (digitsVal cs 0).map fun n => (n : ℤ)

/-- `float(s)`; `none` is `ValueError`.
Simplification: `[-+]digits[.digits]` only; no exponents, `inf` or `nan`. -/
def parseFloat (s : String) : Option ℚ :=
  let go (cs : List Char) : Option ℚ :=
    let a := cs.takeWhile (· ≠ '.')
    match cs.dropWhile (· ≠ '.') with
    | [] => if a = [] then none else (digitsVal a 0).map fun n => (n : ℚ)
    | _ :: f =>
      if a = [] ∧ f = [] then none
      else match digitsVal a 0, digitsVal f 0 with
        | some n, some m => some ((n : ℚ) + (m : ℚ) / 10 ^ f.length)
        | _, _ => none
  match s.toList with
  | '-' :: cs => (go cs).map fun q => -q
  | '+' :: cs => go cs
  | cs => go cs

/-- reading plain decimal numbers -/
def Reader.plain : Reader := ⟨parseInt, parseFloat⟩

/-- `lines.index(x, start)`; `none` is `ValueError` -/
def indexFrom (lines : List String) (x : String) (start : ℕ) : Option ℕ :=
  ((lines.drop start).findIdx? fun l => l = x).map fun i => i + start

/-- the loop of `find_end_index` over the remaining lines (`pyNTM/utilities.py:7-10`) -/
def findEndLoop (lines : List String) (start : ℕ) : List String → Option ℕ
  | [] => none
  | l :: ls => if l = "" then indexFrom lines l start else findEndLoop lines start ls

/-- `find_end_index` (`pyNTM/utilities.py:1-11`); `none` is `None` -/
def findEndIndex (start : ℕ) (lines : List String) : Option ℕ :=
  findEndLoop lines start (lines.drop start)

/-- `lines[a:b]` with `b` possibly `None` -/
def pySlice (lines : List String) (a : ℕ) (b : Option ℕ) : List String :=
  match b with
  | none => lines.drop a
  | some b => (lines.take b).drop a

/-- `rsvp_enabled in [True, "T", "True", "true"]` (`pyNTM/performance_model.py:1154`,
`pyNTM/flex_model.py:1964`) -/
def parseRsvp (s : String) : Bool := s = "T" || s = "True" || s = "true"

/-- The fields of an interface line. -/
structure IfcRow where
  node : String
  remote : String
  name : String
  cost : String
  capacity : String
  ckt : CktId
  rsvp : Bool
  /-- `none`: the default value 100 -/
  pct : Option String

/-- Reading an interface line: 5, 6 or 7 fields in the PerformanceModel
(`pyNTM/performance_model.py:1139-1184`), 6, 7 or 8 in the FlexModel
(`pyNTM/flex_model.py:1937-1984`).  More fields make the unpacking raise `ValueError`. -/
def readIfcRow (k : Kind) (line : String) : Except Exn IfcRow :=
  match k, splitTab line with
  | .perf, [n, r, i, c, cap] => .ok ⟨n, r, i, c, cap, .none, true, none⟩
  | .perf, [n, r, i, c, cap, e] => .ok ⟨n, r, i, c, cap, .none, parseRsvp e, none⟩
  | .perf, [n, r, i, c, cap, e, p] => .ok ⟨n, r, i, c, cap, .none, parseRsvp e, some p⟩
  | .flex, [n, r, i, c, cap, id] => .ok ⟨n, r, i, c, cap, .str id, true, none⟩
  | .flex, [n, r, i, c, cap, id, e] => .ok ⟨n, r, i, c, cap, .str id, parseRsvp e, none⟩
  | .flex, [n, r, i, c, cap, id, e, p] => .ok ⟨n, r, i, c, cap, .str id, parseRsvp e, some p⟩
  | .perf, fs => if fs.length < 5 then .error (.model "fields must be defined")
      else .error .valueError
  | .flex, fs => if fs.length < 6 then .error (.model "fields must be defined")
      else .error .valueError

/-- `float(percent_reservable_bandwidth)` (`pyNTM/performance_model.py:1209`,
`pyNTM/flex_model.py:2011`) -/
def IfcRow.readPct (row : IfcRow) (rd : Reader) : Option ℚ :=
  match row.pct with
  | none => some 100
  | some p => rd.float p

/-- the Node object already in the set with this name, or a fresh one
(`pyNTM/performance_model.py:1186-1198`, `pyNTM/flex_model.py:1986-1998`); `known` are the
references of the set when the line is read. -/
def nodeFor (known : List ℕ) (name : String) : Py ℕ := do
  let s ← get
  match known.find? fun n => (s.node n).name = name with
  | some n => pure n
  | none => newNode name 0 0

/-- One line of the interface table (`pyNTM/performance_model.py:1137-1232`,
`pyNTM/flex_model.py:1935-2029`). -/
def loadIfcLine (rd : Reader) (line : String) : Py Unit := do
  let s ← get
  let row ← liftE (readIfcRow s.kind line)
  let n ← nodeFor s.nodes row.node
  let m ← nodeFor s.nodes row.remote
  match rd.int row.cost, rd.int row.capacity, row.readPct rd with
  | some cost, some cap, some pct => do
    let i ← newIfc row.name cost cap n m row.ckt
    modify fun s => s.updIfc i fun x => { x with rsvpEnabled := row.rsvp, pct := pct }
    modify fun s => if s.ifs.any fun j => s.ifcKey j = s.ifcKey i then s
      else { s with ifs := s.ifs ++ [i] }
    modify fun s => if row.node ∈ s.nodeNames then s else { s with nodes := s.nodes ++ [n] }
    modify fun s => if row.remote ∈ s.nodeNames then s else { s with nodes := s.nodes ++ [m] }
  | _, _, _ => raise .valueError

/-- `igp_shortcuts_enabled = field` (`pyNTM/node.py:112-121`) -/
def parseShortcuts (f : String) : Except Exn Bool :=
  if f = "True" then .ok true else if f = "False" then .ok false else .error .valueError

/-- the fourth field, `False` if there is none (`pyNTM/master_model.py:604-607`) -/
def shortcutsOf (f : Option String) : Except Exn Bool :=
  match f with
  | none => .ok false
  | some f => parseShortcuts f

/-- `int(field)` with default 0 on `ValueError`/`IndexError` (`pyNTM/master_model.py:591-600`) -/
def intOrZero (rd : Reader) (f : Option String) : ℚ :=
  match f.bind rd.int with
  | some n => n
  | none => 0

/-- One line of the node table (`pyNTM/master_model.py:585-621`). -/
def loadNodeLine (rd : Reader) (line : String) : Py Unit := do
  let fs := splitTab line
  let name := fs.headD ""
  let lat := intOrZero rd fs[2]?
  let lon := intOrZero rd fs[1]?
  let sc ← liftE (shortcutsOf fs[3]?)
  let s ← get
  match s.nodes.find? fun n => (s.node n).name = name with
  | some n => set (s.updNode n fun x => { x with lat := lat, lon := lon, shortcuts := sc })
  | none => do
    let n ← newNode name lat lon
    modify fun s => { (s.updNode n fun x => { x with shortcuts := sc }) with
      nodes := s.nodes ++ [n] }

/-- One line of the demand table (`pyNTM/master_model.py:547-583`). -/
def loadDmdLine (rd : Reader) (line : String) : Py Unit := do
  let s ← get
  match splitTab line with
  | [] => raise .indexError
  | src :: fs => do
    let a ← liftE (s.getNode src)
    match fs with
    | [] => raise .indexError
    | dst :: fs => do
      let b ← liftE (s.getNode dst)
      match fs with
      | [] => raise .indexError
      | t :: fs =>
        match rd.int t with
        | none => raise .valueError
        | some traffic =>
          match fs with
          | [] => raise .indexError
          | nm :: _ => do
            let d ← newDmd a b traffic (if nm = "" then "none" else nm)
            modify fun s => if s.dmds.any fun e => s.dmdKey e = s.dmdKey d then s
              else { s with dmds := s.dmds ++ [d] }

/-- One line of the LSP table (`pyNTM/master_model.py:493-545`). -/
def loadLspLine (rd : Reader) (line : String) : Py Unit := do
  let s ← get
  match splitTab line with
  | [] => raise .indexError
  | src :: fs => do
    let a ← liftE (s.getNode src)
    match fs with
    | [] => raise .indexError
    | dst :: fs => do
      let b ← liftE (s.getNode dst)
      match fs with
      | [] => raise .indexError
      | nm :: fs => do
        let l ← newLsp a b nm (fs.head?.bind rd.float) (fs[1]?.bind rd.int)
        modify fun s => if s.lsps.any fun e => s.lspKey e = s.lspKey l then s
          else { s with lsps := s.lsps ++ [l] }

/-- the circuit-id check of `FlexModel.load_model_file` (`pyNTM/flex_model.py:1855-1876`) -/
def cktIdsOk (rows : List String) : Bool :=
  let ids := rows.filterMap fun l => (splitTab l)[5]?
  ids.all fun x => decide (ids.count x = 2)

/-- a new model object (`pyNTM/master_model.py:28-42`) -/
def emptyState (k : Kind) : State where
  kind := k
  node := fun _ => { name := "" }
  ifc := fun _ => { name := "", cost := 1, capacity := 1, node := 0, remote := 0 }
  dmd := fun _ => { src := 0, dst := 0, traffic := 0, name := "" }
  lsp := fun _ => { src := 0, dst := 0, name := "" }
  srlg := fun _ => { name := "" }
  nodes := []
  ifs := []
  dmds := []
  lsps := []
  srlgs := []

/-- `load_model_file` (`pyNTM/performance_model.py:1066-1123`,
`pyNTM/flex_model.py:1837-1917`), run on an empty model. -/
def loadModel (rd : Reader) (lines : List String) : Py Unit := do
  let k := (← get).kind
  match indexFrom lines "INTERFACES_TABLE" 0 with
  | none => raise .valueError
  | some a => do
    let rows := pySlice lines (a + 2) (findEndIndex (a + 2) lines)
    if k = .flex ∧ ¬ cktIdsOk rows then raise (.model "Each circuit_id value must appear exactly twice")
    else do
      forEach rows (loadIfcLine rd)
      match indexFrom lines "NODES_TABLE" 0 with
      | none => raise .valueError
      | some b => do
        forEach (pySlice lines (b + 2) (findEndIndex (b + 2) lines)) (loadNodeLine rd)
        match indexFrom lines "DEMANDS_TABLE" 0 with
        | none => raise .valueError
        | some c => do
          forEach (pySlice lines (c + 2) (findEndIndex (c + 2) lines)) (loadDmdLine rd)
          match indexFrom lines "RSVP_LSP_TABLE" 0 with
          | none => pure ()
          | some e => forEach (lines.drop (e + 2)) (loadLspLine rd)

/-- `load_model_file` on the text of a file -/
def loadText (rd : Reader) (text : String) : Py Unit := loadModel rd (splitLines text)

end NTM
