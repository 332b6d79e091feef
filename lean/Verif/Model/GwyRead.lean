import Verif.Model.Gwy
/-!
# Choosing the height channel of a Gwyddion file and reading it: surfalize/file/gwy.py:39-269

`int(layer_key)` is taken of text matched by `\d+`; only ASCII digits are considered. Image layers
(`read_image_layers=True`) are in `Verif.Model.GwyImages`.
-/
namespace Surfalize
namespace Gwy
open LayoutM FileArr

/-- `fields[key]`. -/
def Fields.at (fs : Fields) (key : List Char) : Except Err GVal :=
  match fs.get key with
  | some v => .ok v
  | none => .error .keyError

/-- `value[name]` of a container value, which is a dictionary with the one key that is the name of the
container. -/
def GVal.at (name : List Char) : GVal → Except Err Fields
  | .obj n fs => if n = name then .ok fs else .error .keyError
  | _ => .error .typeError

/-- `f'/{layer_key}/data'` with the rest of the key. -/
def channelKey (k rest : List Char) : List Char := '/' :: k ++ rest

/-- `tree['GwyContainer'][f'/{layer_key}/data']['GwyDataField']`; `top` is `tree['GwyContainer']`. -/
def dataField (top : Fields) (k rest : List Char) : Except Err Fields :=
  match top.at (channelKey k rest) with
  | .error e => .error e
  | .ok v => v.at "GwyDataField".toList

/-- `field[name]['GwySIUnit']['unitstr']`. -/
def unitStr (field : Fields) (name : List Char) : Except Err GVal :=
  match field.at name with
  | .error e => .error e
  | .ok v =>
    match v.at "GwySIUnit".toList with
    | .error e => .error e
    | .ok u => u.at "unitstr".toList

/-- `unit in UNIT_EXPONENT.keys()` (surfalize/file/gwy.py:44); lists, arrays and dictionaries cannot be
hashed. -/
def knownUnit : GVal → Except Err Bool
  | .str s => .ok (Units.unitExponent.lookup s).isSome
  | .bool _ | .char _ | .int _ | .long _ | .dbl _ => .ok false
  | _ => .error .typeError

/-- Whether a channel passes `_filter_candidates_by_z_unit_presence` (surfalize/file/gwy.py:42-45). -/
def hasZUnit (top : Fields) (k : List Char) : Except Err Bool :=
  match dataField top k "/data".toList with
  | .error e => .error e
  | .ok f =>
    if (f.get "si_unit_z".toList).isSome then
      match unitStr f "si_unit_z".toList with
      | .error e => .error e
      | .ok u => knownUnit u
    else .ok false

/-- `x in y` of strings. -/
def contains (x : List Char) : List Char → Bool
  | [] => x.isEmpty
  | c :: y => x.isPrefixOf (c :: y) || contains x y

/-- Whether the title of a channel contains a guess (surfalize/file/gwy.py:69-71). -/
def namedHeight (T : Units.Text) (top : Fields) (k : List Char) : Except Err Bool :=
  match top.at (channelKey k "/data/title".toList) with
  | .error e => .error e
  | .ok (.str s) =>
    .ok (contains "height".toList (T.lower s) || contains "topo".toList (T.lower s))
  | .ok _ => .error .attributeError

/-- The loop that collects the candidates with a property. -/
def collect (p : List Char → Except Err Bool) : List (List Char) → Except Err (List (List Char))
  | [] => .ok []
  | k :: ks =>
    match p k with
    | .error e => .error e
    | .ok b =>
      match collect p ks with
      | .error e => .error e
      | .ok r => .ok (if b then k :: r else r)

/-- `_filter_candidates_by_z_unit_presence` (surfalize/file/gwy.py:39-46). -/
def byUnit (top : Fields) (cands : List (List Char)) : Except Err (List (List Char)) :=
  collect (hasZUnit top) cands

/-- `_filter_candidates_by_name` (surfalize/file/gwy.py:48-75). -/
def byName (T : Units.Text) (top : Fields) (cands : List (List Char)) : Except Err (List (List Char)) :=
  match collect (namedHeight T top) cands with
  | .error e => .error e
  | .ok [] => .ok cands
  | .ok r => .ok r

/-- `_filter_candidates_by_number` (surfalize/file/gwy.py:78-95). -/
def byNumber (cands : List (List Char)) : Except Err (List (List Char)) :=
  match (cands.map digitsNat).min? with
  | none => .error .indexError
  | some m => .ok [natText m]

/-- `guess_height_channel` (surfalize/file/gwy.py:98-112). -/
def guessHeight (T : Units.Text) (top : Fields) (cands : List (List Char)) : Except Err (List Char) :=
  match byUnit top cands with
  | .error e => .error e
  | .ok [] => .error .unsupported
  | .ok [k] => .ok k
  | .ok c1 =>
    match byName T top c1 with
    | .error e => .error e
    | .ok [] => .error .unsupported
    | .ok [k] => .ok k
    | .ok c2 =>
      match byNumber c2 with
      | .error e => .error e
      | .ok [k] => .ok k
      | .ok _ => .error .unsupported

/-- `re.search(r'/(\d+)/', key)`, the group (surfalize/file/gwy.py:124-127). -/
def layerKey : List Char → Option (List Char)
  | [] => none
  | c :: cs =>
    if c = '/' ∧ cs.takeWhile Char.isDigit ≠ [] ∧ (cs.dropWhile Char.isDigit).head? = some '/' then
      some (cs.takeWhile Char.isDigit)
    else layerKey cs

/-- The layer keys in the order of the container. `list(set(...))`
(surfalize/file/gwy.py:122-128) is some list of the same elements without repetition. -/
def layerKeys (top : Fields) : List (List Char) := top.keys.filterMap layerKey

section
variable {K : Type} [Field K] [LinearOrder K]

/-- A component used as a number. -/
def numOf : GVal → Except Err (Option K)
  | .dbl b => .ok (toOpt (f64.val K b))
  | .int i => .ok (some (i : K))
  | .long i => .ok (some (i : K))
  | .bool b => .ok (some (if b then 1 else 0))
  | _ => .error .typeError

/-- A component used as a resolution. Simplification: a resolution that is not an integer is a
TypeError here (the code raises it in `reshape`). -/
def resOf : GVal → Except Err Int
  | .int i => .ok i
  | .long i => .ok i
  | _ => .error .typeError

/-- A component used as a text. -/
def strOf : GVal → Except Err (List Char)
  | .str s => .ok s
  | _ => .error .attributeError

/-- `field[name]` used by `f`. -/
def Fields.use {α : Type} (fs : Fields) (name : List Char) (f : GVal → Except Err α) : Except Err α :=
  match fs.at name with
  | .error e => .error e
  | .ok v => f v

/-- A component used as an array of numbers. Simplification: only arrays of doubles. -/
def dblsOf : GVal → Except Err (List Nat)
  | .dbls b => .ok b
  | _ => .error .typeError

/-- `field[name]['GwySIUnit']['unitstr']` as an argument of `get_unit_conversion(…, 'um')`
(surfalize/file/gwy.py:229-240). -/
def factor (T : Units.Text) (field : Fields) (name : List Char) : Except Err K :=
  match unitStr field name with
  | .error e => .error e
  | .ok (.str s) => Units.getUnitConversion T s "um".toList
  | .ok _ => .error .attributeError

/-- `real / n * factor` (surfalize/file/gwy.py:236-238); a length that is not a number is a ValueError
here. -/
def stepOf (real : Option K) (n : Int) (f : K) : Except Err K :=
  if n = 0 then .error .zeroDivision
  else match real with
    | some l => .ok (l / (n : K) * f)
    | none => .error .valueError

/-- `data * factor`, points under the mask NaN (surfalize/file/gwy.py:240-244). A mask of another size
is an IndexError. -/
def masked (data : List (Option K)) : Option (List Nat) → Except Err (List (Option K))
  | none => .ok data
  | some m =>
    if m.length = data.length then
      .ok (List.zipWith (fun z b => if f64.val K b = .fin 0 then z else none) data m)
    else .error .indexError

/-- The bits of the mask of a channel, if there is one (surfalize/file/gwy.py:242-243). -/
def maskOf (top : Fields) (k : List Char) : Except Err (Option (List Nat)) :=
  if (top.get (channelKey k "/mask".toList)).isSome then
    match dataField top k "/mask".toList with
    | .error e => .error e
    | .ok f =>
      match f.use "data".toList dblsOf with
      | .error e => .error e
      | .ok m => .ok (some m)
  else .ok none

/-- `data.reshape(ny, nx)` with the steps (surfalize/file/gwy.py:236-246). -/
def assemble (bits : List Nat) (fz fxy : K) (xreal yreal : Option K) (nx ny : Int)
    (mask : Option (List Nat)) : Except Err (Raw K) :=
  match stepOf xreal nx fxy with
  | .error e => .error e
  | .ok sx =>
    match stepOf yreal ny fxy with
    | .error e => .error e
    | .ok sy =>
      match masked (bits.map fun b => (toOpt (f64.val K b)).map (· * fz)) mask with
      | .error e => .error e
      | .ok l =>
        match reshape l ny nx with
        | .error e => .error e
        | .ok g => .ok ⟨g, sx, sy⟩

/-- The metadata of a channel, if there are any (surfalize/file/gwy.py:248-250). -/
def metaOf (top : Fields) (k : List Char) : Except Err Fields :=
  match top.get (channelKey k "/meta".toList) with
  | none => .ok .nil
  | some v => v.at "GwyContainer".toList

/-- The surface of a channel (surfalize/file/gwy.py:226-250); `top` is `tree['GwyContainer']`.
Simplification: which of several errors is raised. -/
def readChannel (T : Units.Text) (top : Fields) (k : List Char) : Except Err (Raw K) :=
  match dataField top k "/data".toList with
  | .error e => .error e
  | .ok f =>
    match f.use "data".toList dblsOf, factor T f "si_unit_xy".toList, factor T f "si_unit_z".toList,
      f.use "xreal".toList numOf, f.use "yreal".toList numOf, f.use "xres".toList resOf,
      f.use "yres".toList resOf, maskOf top k, metaOf top k with
    | .ok bits, .ok fxy, .ok fz, .ok xr, .ok yr, .ok nx, .ok ny, .ok m, .ok _ =>
      assemble bits fz fxy xr yr nx ny m
    | _, _, _, _, _, _, _, _, _ => .error .keyError

/-- `read_gwy` after the tree has been parsed (surfalize/file/gwy.py:220-269). `order` is the order in
which Python lists the set of layer keys. -/
def fromTree (T : Units.Text) (order : List (List Char) → List (List Char))
    (tree : List Char × Fields) : Except Err (Raw K) :=
  if tree.1 = "GwyContainer".toList then
    match guessHeight T tree.2 (order (layerKeys tree.2)) with
    | .error e => .error e
    | .ok k => readChannel T tree.2 k
  else .error .keyError

/-- `read_gwy` (surfalize/file/gwy.py:215-269). -/
def readGwy (T : Units.Text) (enc : Encoding) (order : List (List Char) → List (List Char))
    (h : Handle) : Run (Raw K) :=
  if (h.read 4).1 ≠ utf8 "GWYP".toList then .fail .fileFormat
  else (parseTree enc (h.read 4).2).bind fun r => Run.lift (fromTree T order r.1)

end
end Gwy
end Surfalize
