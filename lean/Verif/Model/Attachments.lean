import Verif.Model.Object

/-!
# Model of metadata and image layers of surfaces (surfalize/surface.py:110-123, 199-222, 260-271, 300-317, 351-359, 491-811)

A world holds dictionary objects and surface objects; surfaces refer to dictionaries by position. The heights are those
of `Verif.Model.Object` (memory of heights shared between objects: `Verif.Model.Heap`). `D` is the type of the entries.
Every call of the constructor inside the library except the one in `from_raw_surface` passes neither metadata nor image
layers.
-/
namespace Surfalize.Attachments
open Surfalize Object

/-- A Python dictionary: keys in the order of insertion. -/
abbrev PyDict (D : Type) := List (String × D)

/-- `d[k] = v`. -/
def PyDict.set {D : Type} (k : String) (v : D) : PyDict D → PyDict D
  | [] => [(k, v)]
  | e :: es => if e.1 = k then (k, v) :: es else e :: PyDict.set k v es

/-- A surface object: heights, steps and cache, and the dictionaries `metadata` and `image_layers`. -/
structure Obj (K V : Type) where
  core : Surf K V
  info : Nat
  images : Nat

structure World (K V D : Type) where
  dicts : List (PyDict D)
  objs : List (Obj K V)

/-- What a user does. -/
inductive Act (K V D : Type) where
  /-- the caller makes a dictionary -/
  | dict (d : PyDict D)
  /-- `Surface(heights, step_x, step_y, metadata, image_layers)` with dictionaries of the caller or without -/
  | construct (d : Grid (Option K)) (sx sy : K) (info images : Option Nat)
  /-- `Surface.load` of a file with these contents -/
  | load (d : Grid (Option K)) (sx sy : K) (info images : PyDict D)
  /-- a method with an `inplace` flag -/
  | call (i : Nat) (op : SOp K) (inplace : Bool)
  /-- `+`, `-`, `*`, `/` with another surface -/
  | arith (f : Option K → Option K → Option K) (i j : Nat)
  /-- the same with a number -/
  | scalar (f : Option K → Option K → Option K) (i : Nat) (c : K)
  /-- `s[item]` -/
  | getitem (i : Nat) (item : Geometry.Index)
  /-- `s.data = heights` -/
  | assign (i : Nat) (d : Grid (Option K))
  /-- an edit of a dictionary object -/
  | edit (r : Nat) (f : PyDict D → PyDict D)
  /-- `s.metadata = d`, `s.image_layers = d` -/
  | setInfo (i r : Nat)
  | setImages (i r : Nat)

section
variable {K V D : Type} [Field K] [LinearOrder K] [FloorRing K]

/-- surface.py:110-123 `Surface(...)`: `metadata if metadata is not None else {}`, the same for `image_layers`. -/
def construct (core : Surf K V) (info images : Option Nat) (w : World K V D) : World K V D × Nat :=
  let w1 : World K V D × Nat := match info with
    | some r => (w, r)
    | none => (⟨w.dicts ++ [[]], w.objs⟩, w.dicts.length)
  let w2 : World K V D × Nat := match images with
    | some r => (w1.1, r)
    | none => (⟨w1.1.dicts ++ [[]], w1.1.objs⟩, w1.1.dicts.length)
  (⟨w2.1.dicts, w2.1.objs ++ [⟨core, w1.2, w2.2⟩]⟩, w2.1.objs.length)

/-- The receiver with its heights after the call. -/
def update (i : Nat) (core : Surf K V) (w : World K V D) : World K V D :=
  ⟨w.dicts, w.objs.modify i fun o => { o with core := core }⟩

/-- One action: the world afterwards and the surfaces returned; an exception changes nothing (C03, C79) and returns nothing. -/
def step (E : Ext K V) (w : World K V D) : Act K V D → World K V D × List Nat
  | .dict d => (⟨w.dicts ++ [d], w.objs⟩, [])
  | .construct d sx sy info images =>
    let r := construct (Surf.init d sx sy) info images w
    (r.1, [r.2])
  | .load d sx sy info images =>                                      -- surface.py:298-317
    let r := construct (Surf.init d sx sy) (some w.dicts.length) (some (w.dicts.length + 1)) ⟨w.dicts ++ [info, images], w.objs⟩
    (r.1, [r.2])
  | .call i op inplace =>
    match w.objs[i]? with
    | none => (w, [])
    | some o =>
      match run E op o.core inplace with
      | .error _ => (w, [])
      | .ok (s, .self) => (update i s w, [i])
      | .ok (s, .new t) =>
        let r := construct t none none (update i s w)
        (r.1, [r.2])
      | .ok (s, .pair t u) =>
        let r := construct t none none (update i s w)
        let q := construct u none none r.1
        (q.1, [r.2, q.2])
      | .ok (s, .selfPair t) =>
        let r := construct t none none (update i s w)
        (r.1, [i, r.2])
  | .arith f i j =>                                                   -- surface.py:202-220
    match w.objs[i]?, w.objs[j]? with
    | some o, some p =>
      match arithOp f o.core (.surf p.core) with
      | .error _ => (w, [])
      | .ok t =>
        let r := construct t none none w
        (r.1, [r.2])
    | _, _ => (w, [])
  | .scalar f i c =>                                                  -- surface.py:221-222
    match w.objs[i]? with
    | none => (w, [])
    | some o =>
      match arithOp f o.core (.scalar c) with
      | .error _ => (w, [])
      | .ok t =>
        let r := construct t none none w
        (r.1, [r.2])
  | .getitem i item =>                                                -- surface.py:260-271
    match w.objs[i]? with
    | none => (w, [])
    | some o =>
      match Geometry.getitem o.core.data o.core.stepY o.core.stepX item with
      | .error _ => (w, [])
      | .ok (d, sy, sx) =>
        let r := construct (Surf.init d sx sy) none none w
        (r.1, [r.2])
  | .assign i d =>                                                    -- surface.py:140-145
    match w.objs[i]? with
    | none => (w, [])
    | some o => (update i (o.core.setData d) w, [])
  | .edit r f => (⟨w.dicts.modify r f, w.objs⟩, [])
  | .setInfo i r => (⟨w.dicts, w.objs.modify i fun o => { o with info := r }⟩, [])
  | .setImages i r => (⟨w.dicts, w.objs.modify i fun o => { o with images := r }⟩, [])

/-- A history from the beginning. -/
def runs (E : Ext K V) (acts : List (Act K V D)) : World K V D := acts.foldl (fun w a => (step E w a).1) ⟨[], []⟩

/-- surface.py:351-359 `get_image_layer_names`. -/
def layerNames (w : World K V D) (i : Nat) : Option (List String) :=
  (w.objs[i]?).bind fun o => (w.dicts[o.images]?).map fun d => d.map (·.1)

end
end Surfalize.Attachments
