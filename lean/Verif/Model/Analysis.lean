import Verif.Model.Cache
import Verif.Model.Fourier
import Verif.Model.Autocorr
import Verif.Model.Abbott

/-!
# Model of the analysis objects of a surface: `FourierTransform`, `AutocorrelationFunction`, `AbbottFirestoneCurve`
(surfalize/fourier.py:8-210, surfalize/autocorrelation.py:11-152, surfalize/abbottfirestone.py:6-362,
surfalize/surface.py:1042-1114, 1316-1374, surfalize/base.py:408-525)

An analysis object refers to the surface (`self._surface`, `self._obj`), computes a part of its results when it is
made and the rest when asked, and has a method cache of its own. The surface keeps the object in its own method cache, which every
change of the heights clears. The entry for the object and the entries for parameters have different method names, so they are
separate fields here. An operation such as `align` that reads a parameter and then stores heights is a `param` followed by a `change`.
-/
namespace Surfalize.Analysis
open Surfalize CacheM

/-- A class of analysis objects: `D` is what the surface holds (heights and steps), `S` what `__init__` computes. -/
structure Tool (D S V A : Type) where
  /-- `__init__`: the check for missing points and the part computed at once -/
  build : D → Except Err S
  /-- the methods, which read that part and the surface as it is when they run -/
  cls : Cls (S × D) V A

/-- The methods of the surface that hand a call on to the analysis object, such as `Sal`. -/
structure Face (A : Type) where
  deleg : Call A → Call A
  cached : String → Bool
  render : Render A

/-- An analysis object: what it computed when made, and its `_method_cache`. -/
structure View (S V : Type) where
  snap : S
  cache : Cache V

/-- A surface with its analysis objects of one class: heights and steps, the entry for the object in its `_method_cache`, the entries for
parameters, and all objects made so far. -/
structure World (D S V : Type) where
  state : D
  slot : Option Nat
  params : Cache V
  views : List (View S V)

variable {D S V A : Type}

/-- surface.py:1042-1067, base.py:408-419 `get_fourier_transform()` etc. with `@cache`. -/
def get (T : Tool D S V A) (w : World D S V) : World D S V × Except Err Nat :=
  match w.slot with
  | some i => (w, .ok i)
  | none =>
    match T.build w.state with
    | .error e => (w, .error e)
    | .ok s => ({ w with slot := some w.views.length, views := w.views ++ [⟨s, []⟩] }, .ok w.views.length)

/-- A call of a method of object `i`. -/
def ask (T : Tool D S V A) (n : Nat) (w : World D S V) (i : Nat) (m : Call A) : World D S V × Except Err V :=
  match w.views[i]? with
  | none => (w, .error .indexError)
  | some v =>
    let r := invoke T.cls n m (v.snap, w.state) v.cache
    ({ w with views := w.views.set i ⟨v.snap, r.2⟩ }, r.1)

/-- surface.py:1090, 1114, 1127, …: `return self.get_…().method(…)`, with or without `@cache`. -/
def param (T : Tool D S V A) (F : Face A) (n : Nat) (w : World D S V) (c : Call A) : World D S V × Except Err V :=
  match (if F.cached c.name then Cache.get? w.params (F.render.key c) else none) with
  | some v => (w, .ok v)
  | none =>
    match get T w with
    | (w', .error e) => (w', .error e)
    | (w', .ok i) =>
      match ask T n w' i (F.deleg c) with
      | (w'', .error e) => (w'', .error e)
      | (w'', .ok v) =>
        (if F.cached c.name then { w'' with params := Cache.set w''.params (F.render.key c) v } else w'', .ok v)

/-- What a user does. `change` is every way of storing heights through the API: assignment, item assignment, operations in
place; `error` if it raises. -/
inductive Op (D A : Type) where
  | get
  | ask (i : Nat) (m : Call A)
  | param (c : Call A)
  | change (f : D → Except Err D)
  | clear

/-- What the user sees. -/
inductive Out (V : Type) where
  | object (i : Nat)
  | value (v : V)
  | done
  | exn (e : Err)

def Out.ofVal : Except Err V → Out V
  | .ok v => .value v
  | .error e => .exn e

/-- One step. -/
def step (T : Tool D S V A) (F : Face A) (n : Nat) (w : World D S V) : Op D A → World D S V × Out V
  | .get =>
    match get T w with
    | (w', .ok i) => (w', .object i)
    | (w', .error e) => (w', .exn e)
  | .ask i m => ((ask T n w i m).1, Out.ofVal (ask T n w i m).2)
  | .param c => ((param T F n w c).1, Out.ofVal (param T F n w c).2)
  | .change f =>                                                       -- surface.py:140-145, 170-197, base.py:128-134
    match f w.state with
    | .error e => (w, .exn e)
    | .ok d => ({ w with state := d, slot := none, params := [] }, .done)
  | .clear => ({ w with slot := none, params := [] }, .done)           -- cache.py:50-58

/-- A history and what it shows. -/
def run (T : Tool D S V A) (F : Face A) (n : Nat) : World D S V → List (Op D A) → World D S V × List (Out V)
  | w, [] => (w, [])
  | w, op :: ops =>
    let r := step T F n w op
    let q := run T F n r.1 ops
    (q.1, r.2 :: q.2)

/-- A new surface. -/
def fresh (d : D) : World D S V := ⟨d, none, [], []⟩

/-! ## The three classes -/

/-- Heights and steps of a surface. -/
structure Topo where
  grid : Grid (Option ℝ)
  stepX : ℝ
  stepY : ℝ

/-- surface.py:143-144 (C04). -/
noncomputable def Topo.width (t : Topo) : ℝ := ((t.grid.nx : ℝ) - 1) * t.stepX
noncomputable def Topo.height (t : Topo) : ℝ := ((t.grid.ny : ℝ) - 1) * t.stepY

/-- Arguments: floats, which are rational, and flags. -/
inductive Arg where
  | num (x : ℚ)
  | flag (b : Bool)

/-- Results: a number (`none`: infinite or NaN), a pair, or a list of angles with a spectrum. -/
inductive Val where
  | num (x : Option ℝ)
  | pair (x y : Option ℝ)
  | spectrum (angles values : List ℝ)

/-- `angle_step` or `s`, by position, by keyword or the default. -/
def argOr (name : String) (dflt : ℚ) (m : Call Arg) : Option ℚ :=
  match m.args, m.kwargs with
  | [], [] => some dflt
  | [.num x], [] => some x
  | [], [(k, .num x)] => if k = name then some x else none
  | _, _ => none

def ofNum (x : Except Err (Option ℝ)) : Prog D Val Arg Val := match x with | .ok v => .ret (.num v) | .error e => .raise e


/-- fourier.py:8-210, methods and the calls they make. `garbage` is what numpy makes of heights with NaN: the check for missing
points is only in `__init__`. -/
noncomputable def fourierBody (argsort : Fourier.Argsort) (garbage : String → Topo → Val) (m : Call Arg) :
    Prog (Unit × Topo) Val Arg Val :=
  let peak : Call Arg := ⟨"_get_peak_dx_dy", [], []⟩
  let guard := fun (k : Topo → Prog (Unit × Topo) Val Arg Val) =>
    Prog.readData fun st => if BaseOps.hasMissing st.2.grid then .ret (garbage m.name st.2) else k st.2
  if m.name = "_get_peak_dx_dy" then guard fun t =>
    match Fourier.peakDxDy argsort t.grid t.width t.height with
    | .ok p => .ret (.pair (some p.1) (some p.2))
    | .error e => .raise e
  else if m.name = "period" then .call peak fun
    | .pair (some dx) (some dy) =>
      let h := Real.sqrt (dx ^ 2 + dy ^ 2)
      .ret (.num (if h = 0 then none else some (2 / h)))
    | _ => .raise .typeError
  else if m.name = "period_x_y" then .call peak fun
    | .pair (some dx) (some dy) =>
      .ret (.pair (if dx = 0 then none else some |2 / dx|) (if dy = 0 then none else some |2 / dy|))
    | _ => .raise .typeError
  else if m.name = "orientation" then .call peak fun
    | .pair (some dx) (some dy) =>
      .ret (.num (some (if dx = 0 then 90 else if dy = 0 then 0 else Real.arctan (dy / dx) * 180 / Real.pi)))
    | _ => .raise .typeError
  else if m.name = "dominant_wavelength" then guard fun t => ofNum (Fourier.dominantWavelength t.grid t.width t.height)
  else if m.name = "_angular_spectrum" then
    match m.args, m.kwargs with
    | [.num step], [("squared", .flag b)] => guard fun t =>
      match Fourier.angularSpectrum t.grid t.width t.height (step : ℝ) b with
      | .ok s => .ret (.spectrum s.1 s.2)
      | .error e => .raise e
    | _, _ => .raise .typeError
  else if m.name = "angular_power_spectrum" then
    match argOr "angle_step" 1 m with
    | some step => .call ⟨"_angular_spectrum", [.num step], [("squared", .flag true)]⟩ .ret
    | none => .raise .typeError
  else if m.name = "Std" then
    match argOr "angle_step" (1 / 2) m with
    | some step => .call ⟨"_angular_spectrum", [.num step], [("squared", .flag true)]⟩ fun
      | .spectrum a s => .ret (.num (some (a.getD (argmax s) 0)))
      | _ => .raise .typeError
    | none => .raise .typeError
  else .raise .attributeError

/-- fourier.py:19-25: `__init__` checks for missing points and computes nothing. -/
noncomputable def fourierTool (argsort : Fourier.Argsort) (garbage : String → Topo → Val) (R : Render Arg) : Tool Topo Unit Val Arg where
  build t := if BaseOps.hasMissing t.grid then .error .valueError else .ok ()
  cls := { body := fourierBody argsort garbage, cached := fun s => s ≠ "Std", render := R }

/-- surface.py:1316-1374, 1454: the parameters of a surface taken from the Fourier transform. `Std` and `Ssw` are not cached by the surface. -/
noncomputable def fourierFace (R : Render Arg) : Face Arg where
  deleg c := if c.name = "Ssw" then ⟨"dominant_wavelength", [], []⟩
    else if c.name = "Std" then ⟨"Std", [], [("angle_step", .num ((argOr "angle_step" (1 / 2) c).getD (1 / 2)))]⟩
    else ⟨c.name, [], []⟩
  cached s := s = "period" ∨ s = "period_x_y" ∨ s = "orientation"
  render := R

/-- autocorrelation.py:55-152: `_calculate_decay_lengths`, `Sal` and `Str` with the calls they make. The array is the one computed in
`__init__`, the steps are those of the surface when the method runs (line 85). -/
noncomputable def acfBody (line : Autocorr.LineInterp) (m : Call Arg) : Prog (Grid (Option ℝ) × Topo) Val Arg Val :=
  if m.name = "_calculate_decay_lengths" then
    match m.args, m.kwargs with
    | [.num s], [] => .readData fun st =>
      match Autocorr.decayLengths line st.1 st.2.stepX st.2.stepY (s : ℝ) with
      | .ok p => .ret (.pair (some p.1) (some p.2))
      | .error e => .raise e
    | _, _ => .raise .typeError
  else if m.name = "Sal" then
    match argOr "s" (1 / 5) m with
    | some s => .call ⟨"_calculate_decay_lengths", [.num s], []⟩ fun
      | .pair a _ => .ret (.num a)
      | _ => .raise .typeError
    | none => .raise .typeError
  else if m.name = "Str" then
    match argOr "s" (1 / 5) m with
    | some s => .call ⟨"_calculate_decay_lengths", [.num s], []⟩ fun
      | .pair (some a) (some b) => .ret (.num (if b = 0 then none else some (a / b)))
      | _ => .raise .typeError
    | none => .raise .typeError
  else .raise .attributeError

/-- autocorrelation.py:23-34: `__init__` computes the autocorrelation. -/
noncomputable def acfTool (line : Autocorr.LineInterp) (R : Render Arg) : Tool Topo (Grid (Option ℝ)) Val Arg where
  build t := Autocorr.acf t.grid
  cls := { body := acfBody line, cached := fun _ => true, render := R }

/-- surface.py:1069-1114: `self.get_autocorrelation_function().Sal(s=s)`. -/
noncomputable def acfFace (R : Render Arg) : Face Arg where
  deleg c := ⟨c.name, [], [("s", .num ((argOr "s" (1 / 5) c).getD (1 / 5)))]⟩
  cached _ := true
  render := R

section Abbott
variable {K : Type} [Field K] [LinearOrder K] [FloorRing K]

/-- abbottfirestone.py:123-266: the parameters without arguments; all but `pkx` and `vkx` (lines 230, 242: the heights of the surface when
the method runs) depend only on the curve computed in `__init__`. With NaN among the heights `pkx` and `vkx` are NaN. -/
def abbottBody (sort : Interp.PtSort K) (m : Call Unit) : Prog (Abbott.Curve K × List (Option K)) (Option K) Unit (Option K) :=
  .readData fun st =>
    let c := st.1
    if m.name = "k" then .ret (some c.k)
    else if m.name = "mr1" then .ret (some (c.mr1 sort))
    else if m.name = "mr2" then .ret (some (c.mr2 sort))
    else if m.name = "pk" then .ret (c.pk sort)
    else if m.name = "vk" then .ret (c.vk sort)
    else if m.name = "ak1" then .ret (c.ak1 sort)
    else if m.name = "ak2" then .ret (c.ak2 sort)
    else if m.name = "pkx" then
      .ret (if none ∈ st.2 then none else some (Abbott.Curve.pkx { c with data := measured st.2 }))
    else if m.name = "vkx" then
      .ret (if none ∈ st.2 then none else some (Abbott.Curve.vkx { c with data := measured st.2 }))
    else .raise .attributeError

/-- abbottfirestone.py:27-121: `__init__` computes the curve. -/
def abbottTool (lstsq : Detrend.Lstsq K) (nbins : Nat) (sort : Interp.PtSort K) : Tool (List (Option K)) (Abbott.Curve K) (Option K) Unit where
  build d := Abbott.build lstsq nbins d
  cls := { body := abbottBody sort, cached := fun _ => true, render := ⟨fun _ => "()", fun _ => "dict_items([])"⟩ }

/-- surface.py:1116-1219, profile.py:446-541: `Sk`/`Rk` → `k` and so on, without `@cache`. -/
def abbottFace : Face Unit where
  deleg c := ⟨(c.name.drop 1).toString, [], []⟩
  cached _ := false
  render := ⟨fun _ => "()", fun _ => "dict_items([])"⟩

end Abbott
end Surfalize.Analysis
