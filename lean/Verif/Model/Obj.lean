import Verif.Model.Importer
import Verif.Model.Import
/-
Reading and writing .obj text, src/obj.rs. Text is a list of bytes. Error messages are not modelled;
every error of this file has kind `Other`.
-/

namespace Tmf

/-- `Display` and `FromStr` for `f32` (standard library). -/
structure FloatText (fo : FloatOps) where
  print : fo.F → List UInt8
  parse : List UInt8 → Option fo.F

/-- The bytes of an ASCII literal. -/
def ascii (s : String) : List UInt8 := s.toList.map (fun c => UInt8.ofNat c.toNat)

/-! ### Reading -/

/-- `str::split`: the pieces between separators; never empty. The separators are ASCII, so splitting
bytes and splitting characters agree. -/
def splitBytes (sep : UInt8 → Bool) : List UInt8 → List (List UInt8)
  | [] => [[]]
  | c :: rest =>
    if sep c then [] :: splitBytes sep rest
    else match splitBytes sep rest with
      | [] => [[c]]
      | w :: ws => (c :: w) :: ws

/-- `[' ', '/']`, src/obj.rs:8. -/
def isObjSep (c : UInt8) : Bool := c == 32 || c == 47

/-- Drop one trailing carriage return. -/
def stripCr (l : List UInt8) : List UInt8 := if l.getLast? = some 13 then l.dropLast else l

/-- `BufRead::lines`: lines end at a line feed, which is removed together with a carriage return
before it; a last line without line feed counts if it is not empty. -/
def textLinesAux : (cur : List UInt8) → List UInt8 → List (List UInt8)
  | cur, [] => if cur = [] then [] else [cur]
  | cur, c :: rest => if c = 10 then stripCr cur :: textLinesAux [] rest else textLinesAux (cur ++ [c]) rest

def textLines (text : List UInt8) : List (List UInt8) := textLinesAux [] text

/-- `match_split(split.next())`, src/obj.rs:54-62: the next piece and the rest. -/
def nextWord : List (List UInt8) → Outcome IoError (List UInt8 × List (List UInt8))
  | [] => .err .other
  | w :: ws => .ok (w, ws)

/-- The value of a digit. -/
def digit? (c : UInt8) : Option Nat := if 48 ≤ c.toNat ∧ c.toNat ≤ 57 then some (c.toNat - 48) else none

/-- The number a list of digits denotes. -/
def digitsValue : (acc : Nat) → List UInt8 → Option Nat
  | acc, [] => some acc
  | acc, c :: rest => match digit? c with
    | some d => digitsValue (10 * acc + d) rest
    | none => none

/-- The digits after an optional plus sign. -/
def unsignedDigits : List UInt8 → List UInt8
  | [] => []
  | c :: rest => if c = 43 then rest else c :: rest

/-- `str::parse::<u32>`: an optional plus sign and at least one digit; no overflow. -/
def parseU32 (w : List UInt8) : Option Nat :=
  let ds := unsignedDigits w
  if ds = [] then none
  else match digitsValue 0 ds with
    | some n => if n < 2 ^ 32 then some n else none
    | none => none

/-- `parse_index`, src/obj.rs:51-53: anything that is not a number counts as 1. -/
def parseIndex (w : List UInt8) : Nat := (parseU32 w).getD 1

/-- `load_indices`, src/obj.rs:65-80. -/
def loadIndices (ws : List (List UInt8)) : Outcome IoError ((Nat × Nat × Nat) × List (List UInt8)) := do
  let (w0, ws) ← nextWord ws
  let (w1, ws) ← nextWord ws
  let (w2, ws) ← nextWord ws
  if parseIndex w0 < 1 ∨ parseIndex w1 < 1 ∨ parseIndex w2 < 1 then .err .other
  else .ok ((parseIndex w0 - 1, parseIndex w1 - 1, parseIndex w2 - 1), ws)

/-- The loop of `load_face`, src/obj.rs:86-90: it stops at the first error of any kind. Every
iteration uses up words, so `fuel = ws.length + 1` is enough. -/
def loadFaceLoop : (fuel : Nat) → List (List UInt8) → (v u n : List Nat) → Outcome IoError (List Nat × List Nat × List Nat)
  | 0, _, _, _, _ => .panic
  | fuel + 1, ws, v, u, n =>
    match loadIndices ws with
    | .ok ((i, j, k), ws) => loadFaceLoop fuel ws (v ++ [i]) (u ++ [j]) (n ++ [k])
    | .err _ => .ok (v, u, n)
    | .panic => .panic

/-- How faces are added: `Importer.pushFace` or, with the feature "triangulation",
`Importer.pushFaceTri`. -/
abbrev PushFace (F : Type) := (v u n : List Nat) → Importer F → Outcome IoError (Importer F)

/-- `load_face`, src/obj.rs:82-95. -/
def loadFace {F : Type} (face : PushFace F) (ws : List (List UInt8)) (oi : Importer F) : Outcome IoError (Importer F) := do
  let (v, u, n) ← loadFaceLoop (ws.length + 1) ws [] [] []
  face v u n oi

variable {fo : FloatOps}

/-- `parse_float_type`, src/obj.rs:42-50. -/
def parseFloat (ft : FloatText fo) (w : List UInt8) : Outcome IoError fo.F :=
  match ft.parse w with
  | some x => .ok x
  | none => .err .other

/-- `load_vec3`, src/obj.rs:96-107. -/
def loadVec3 (ft : FloatText fo) (ws : List (List UInt8)) : Outcome IoError (Vec3 fo.F) := do
  let (w0, ws) ← nextWord ws
  let (w1, ws) ← nextWord ws
  let (w2, _) ← nextWord ws
  let x ← parseFloat ft w0
  let y ← parseFloat ft w1
  let z ← parseFloat ft w2
  .ok (x, y, z)

/-- `load_vec2`, src/obj.rs:108-111. -/
def loadVec2 (ft : FloatText fo) (ws : List (List UInt8)) : Outcome IoError (Vec2 fo.F) := do
  let (w0, ws) ← nextWord ws
  let (w1, _) ← nextWord ws
  let x ← parseFloat ft w0
  let y ← parseFloat ft w1
  .ok (x, y)

/-- The `match` of `parse_line`, src/obj.rs:11-25: `beg` is the first word. All other words are
ignored. -/
def parseWords (ft : FloatText fo) (face : PushFace fo.F) (b : Build) (beg : List UInt8) (ws : List (List UInt8))
    (oi : Importer fo.F) : Outcome IoError (Option (Mesh fo.F × List UInt8) × Importer fo.F) :=
  if beg = ascii "v" then do
    let x ← loadVec3 ft ws
    .ok (none, { oi with vertices := oi.vertices ++ [x] })
  else if beg = ascii "vn" then do
    let x ← loadVec3 ft ws
    .ok (none, { oi with normals := oi.normals ++ [x] })
  else if beg = ascii "vt" then do
    let x ← loadVec2 ft ws
    .ok (none, { oi with uvs := oi.uvs ++ [x] })
  else if beg = ascii "f" then do
    let oi ← loadFace face ws oi
    .ok (none, oi)
  else if beg = ascii "o" then do
    let (name, _) ← nextWord ws
    (oi.nextMesh b name).widen
  else .ok (none, oi)

/-- `parse_line`, src/obj.rs:5-27. A line that is not UTF-8 is an error of the reader. -/
def parseLine (ft : FloatText fo) (face : PushFace fo.F) (b : Build) (line : List UInt8) (oi : Importer fo.F) :
    Outcome IoError (Option (Mesh fo.F × List UInt8) × Importer fo.F) :=
  if validUtf8 line then do
    let (beg, ws) ← nextWord (splitBytes isObjSep line)
    parseWords ft face b beg ws oi
  else .err .other

/-- The loop and the end of `read_from_obj`, src/obj.rs:34-40. -/
def readObjLoop (ft : FloatText fo) (face : PushFace fo.F) (b : Build) : List (List UInt8) → Importer fo.F →
    Outcome IoError (List (Mesh fo.F × List UInt8))
  | [], oi => do
    let m ← (oi.finish b).widen
    .ok [m]
  | line :: rest, oi => do
    let (m, oi) ← parseLine ft face b line oi
    let ms ← readObjLoop ft face b rest oi
    .ok (m.toList ++ ms)

/-- `read_from_obj`, src/obj.rs:28-41, on a reader that delivers `text`. -/
def readFromObj (ft : FloatText fo) (face : PushFace fo.F) (b : Build) (text : List UInt8) :
    Outcome IoError (List (Mesh fo.F × List UInt8)) :=
  readObjLoop ft face b (textLines text) .new

/-- `read_from_obj_one`, src/lib.rs:683-701. -/
def readFromObjOne (ft : FloatText fo) (face : PushFace fo.F) (b : Build) (text : List UInt8) :
    Outcome IoError (Mesh fo.F × List UInt8) := do
  let ms ← readFromObj ft face b text
  match ms with
  | [m] => .ok m
  | _ => .err .other

/-! ### Writing -/

/-- `Display` for integers; `fuel = n + 1` is enough. -/
def decimalAux : (fuel n : Nat) → List UInt8
  | 0, _ => []
  | fuel + 1, n =>
    if n < 10 then [UInt8.ofNat (48 + n)]
    else decimalAux fuel (n / 10) ++ [UInt8.ofNat (48 + n % 10)]

def decimal (n : Nat) : List UInt8 := decimalAux (n + 1) n

/-- `+` on `u32`. -/
def addU32 (b : Build) (x y : Nat) : Outcome IoError Nat :=
  if x + y < 2 ^ 32 then .ok (x + y)
  else match b with
    | .checked => .panic
    | .wrapping => .ok ((x + y) % 2 ^ 32)

/-- `writeln!(w, "v {} {} {}", ..)` and the same for normals, src/obj.rs:123,132. -/
def vec3Line (ft : FloatText fo) (kind : List UInt8) (x : Vec3 fo.F) : List UInt8 :=
  kind ++ [32] ++ ft.print x.1 ++ [32] ++ ft.print x.2.1 ++ [32] ++ ft.print x.2.2 ++ [10]

/-- `writeln!(w, "vt {} {}", ..)`, src/obj.rs:140. -/
def vec2Line (ft : FloatText fo) (x : Vec2 fo.F) : List UInt8 :=
  ascii "vt" ++ [32] ++ ft.print x.1 ++ [32] ++ ft.print x.2 ++ [10]

/-- Indexing a slice, `a[i]`. -/
def indexAt (l : List Nat) (i : Nat) : Outcome IoError Nat :=
  match l[i]? with
  | some x => .ok x
  | none => .panic

/-- The uv part of a corner, src/obj.rs:189-196. -/
def uvText (b : Build) (uvs normals : Option (List Nat)) (offset i : Nat) : Outcome IoError (List UInt8) :=
  match uvs with
  | some uvs => do
    let x ← indexAt uvs i
    let x ← addU32 b x offset
    .ok (47 :: decimal x)
  | none => .ok (if normals.isSome then [47] else [])

/-- The normal part of a corner, src/obj.rs:197-199. -/
def normalText (b : Build) (normals : Option (List Nat)) (offset i : Nat) : Outcome IoError (List UInt8) :=
  match normals with
  | some normals => do
    let x ← indexAt normals i
    let x ← addU32 b x offset
    .ok (47 :: decimal x)
  | none => .ok []

/-- The loop over corners, src/obj.rs:181-205. -/
def facesText (b : Build) (v : List Nat) (u n : Option (List Nat)) (offset : Nat × Nat × Nat) :
    List Nat → Outcome IoError (List UInt8)
  | [] => .ok []
  | i :: rest => do
    let x ← indexAt v i
    let x ← addU32 b x offset.1
    let ut ← uvText b u n offset.2.1 i
    let nt ← normalText b n offset.2.2 i
    let text ← facesText b v u n offset rest
    .ok ((if i % 3 = 0 then ascii "f " else []) ++ decimal x ++ ut ++ nt ++ (if i % 3 = 2 then [10] else [32]) ++ text)

/-- The lines before the faces, src/obj.rs:118-143. -/
def meshText (ft : FloatText fo) (m : Mesh fo.F) (name : List UInt8) : List UInt8 :=
  ascii "o " ++ name ++ [10] ++ (m.vertices.getD []).flatMap (vec3Line ft (ascii "v")) ++
    (m.normals.getD []).flatMap (vec3Line ft (ascii "vn")) ++ (m.uvs.getD []).flatMap (vec2Line ft)

/-- A present index array has the given length. -/
def lengthFits (a : Option (List Nat)) (len : Nat) : Bool :=
  match a with
  | some l => l.length == len
  | none => true

/-- `save_obj`, src/obj.rs:112-220: the text written and the counts returned. What is written before
an error is not modelled. -/
def saveObj (ft : FloatText fo) (b : Build) (m : Mesh fo.F) (offset : Nat × Nat × Nat) (name : List UInt8) :
    Outcome IoError (List UInt8 × Nat × Nat × Nat) :=
  match m.vertexTriangles with
  | none =>
    if m.normalTriangles.isSome ∨ m.uvTriangles.isSome then .err .other
    else .ok (meshText ft m name, 0, 0, 0)
  | some v =>
    if lengthFits m.normalTriangles v.length && lengthFits m.uvTriangles v.length then do
      let faces ← facesText b v m.uvTriangles m.normalTriangles offset (List.range v.length)
      .ok (meshText ft m name ++ faces, (m.vertices.getD []).length % 2 ^ 32, (m.uvs.getD []).length % 2 ^ 32,
        (m.normals.getD []).length % 2 ^ 32)
    else .err .other

/-- The loop of `write_obj`, src/obj.rs:229-234. -/
def writeObjLoop (ft : FloatText fo) (b : Build) : List (Mesh fo.F × List UInt8) → (offset : Nat × Nat × Nat) →
    Outcome IoError (List UInt8)
  | [], _ => .ok []
  | (m, name) :: rest, offset => do
    let (text, counts) ← saveObj ft b m offset name
    let o0 ← addU32 b offset.1 counts.1
    let o1 ← addU32 b offset.2.1 counts.2.1
    let o2 ← addU32 b offset.2.2 counts.2.2
    let texts ← writeObjLoop ft b rest (o0, o1, o2)
    .ok (text ++ texts)

/-- `write_obj` into a buffer, src/obj.rs:222-237. -/
def writeObj (ft : FloatText fo) (b : Build) (meshes : List (Mesh fo.F × List UInt8)) : Outcome IoError (List UInt8) := do
  let text ← writeObjLoop ft b meshes (1, 1, 1)
  .ok (ascii "s 1\n" ++ text)

end Tmf
