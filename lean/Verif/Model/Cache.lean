import Verif.Prelude.Err

/-!
# Model of the per-instance method cache (surfalize/cache.py) and of the objects that carry it

A method body is a program that may read the object's heights and call other (cached or uncached)
methods of the same object, as `Sa` calls `height_parameters`, `stepheight` calls
`_stepheight_get_upper_lower_median`, and so on. `D` is the type of the object's height data
(together with its step sizes), `V` the type of the values methods return.

Simplifications: values are immutable here (sharing of returned objects is modelled separately in
`Verif.Model.Heap`); Python's recursion limit is the fuel `n`, and running out of it raises
`Err.recursion`.
-/
namespace Surfalize.CacheM

/-- A call `self.name(*args, **kwargs)`. Arguments are opaque tokens; `kwargs` keeps call order. -/
structure Call (A : Type) where
  name : String
  args : List A
  kwargs : List (String × A)

/-- cache.py:26, 79 — the key `(method.__name__, str(args), str(kwargs.items()))`. -/
structure Key where
  name : String
  args : String
  kwargs : String
  deriving DecidableEq, Repr

/-- The two `str(...)` renderings used in the key (cache.py:26); which strings Python produces is a
parameter of the model. -/
structure Render (A : Type) where
  strArgs : List A → String
  strKwargs : List (String × A) → String

/-- cache.py:26 / cache.py:79. -/
def Render.key {A : Type} (R : Render A) (c : Call A) : Key :=
  { name := c.name, args := R.strArgs c.args, kwargs := R.strKwargs c.kwargs }

/-- The dictionary `_method_cache` (cache.py:48, 58): newest entry first. -/
abbrev Cache (V : Type) := List (Key × V)

/-- `self._method_cache[key]` (cache.py:29); `none` is `KeyError`. -/
def Cache.get? {V : Type} (c : Cache V) (k : Key) : Option V := List.lookup k c

/-- `self._method_cache[key] = value` (cache.py:36, 80). -/
def Cache.set {V : Type} (c : Cache V) (k : Key) (v : V) : Cache V := (k, v) :: c

/-- The body of a method: reads of `self.data`, calls to other methods, a result or an exception. -/
inductive Prog (D V A R : Type) : Type where
  | ret (r : R) : Prog D V A R
  | raise (e : Err) : Prog D V A R
  | readData (k : D → Prog D V A R) : Prog D V A R
  | call (c : Call A) (k : V → Prog D V A R) : Prog D V A R

/-- A class: the body of every method and which methods carry the `@cache` decorator. -/
structure Cls (D V A : Type) where
  body : Call A → Prog D V A V
  cached : String → Bool
  render : Render A

/-- Result of running code on an object: value or exception, and the cache it leaves. -/
abbrev Res (V R : Type) := Except Err R × Cache V

/-- Runs a body; `callee` runs the methods it calls. -/
def runProg {D V A R : Type} (callee : Call A → D → Cache V → Res V V) :
    Prog D V A R → D → Cache V → Res V R
  | .ret r, _, c => (.ok r, c)
  | .raise e, _, c => (.error e, c)
  | .readData k, d, c => runProg callee (k d) d c
  | .call m k, d, c =>
    match callee m d c with
    | (.ok v, c') => runProg callee (k v) d c'
    | (.error e, c') => (.error e, c')

/-- cache.py:23-37 (`wrapped_method`) for decorated methods, plain call otherwise.
`n` bounds the call depth (Python's recursion limit). -/
def invoke {D V A : Type} (K : Cls D V A) : Nat → Call A → D → Cache V → Res V V
  | 0, _, _, c => (.error .recursion, c)
  | n + 1, m, d, c =>
    if K.cached m.name then
      match Cache.get? c (K.render.key m) with
      | some v => (.ok v, c)                                   -- cache hit, cache.py:28-31
      | none =>
        match runProg (invoke K n) (K.body m) d c with         -- cache miss, cache.py:32-37
        | (.ok v, c') => (.ok v, Cache.set c' (K.render.key m) v)
        | (.error e, c') => (.error e, c')
    else runProg (invoke K n) (K.body m) d c

/-- A topography object: its heights and its `_method_cache`. -/
structure Obj (D V : Type) where
  data : D
  cache : Cache V

/-- What a user can do to an object through the API.
* `read c`: call a method;
* `assign d`: `obj.data = d` (surface.py:140-145, profile.py:85-89);
* `setitem f`: `obj[key] = value` (base.py:128-134); `f` is the numpy item assignment, `error` if it
  rejects the index or the value;
* `inplace p`: an operation with `inplace=True`; `p` computes the new heights, possibly calling cached
  methods (e.g. `align` calls `orientation`), then `_set_data` stores them (surface.py:170-197,
  profile.py:102-124);
* `clear`: `obj.clear_cache()` (cache.py:50-58). -/
inductive Op (D V A : Type) : Type where
  | read (c : Call A)
  | assign (d : D)
  | setitem (f : D → Except Err D)
  | inplace (p : Prog D V A D)
  | clear

/-- What the user observes of one step. -/
inductive Out (V : Type) where
  | value (v : V)
  | done
  | exn (e : Err)
  deriving DecidableEq

/-- One user-level step on the object. -/
def step {D V A : Type} (K : Cls D V A) (n : Nat) (o : Obj D V) : Op D V A → Obj D V × Out V
  | .read m =>
    match invoke K n m o.data o.cache with
    | (.ok v, c) => ({ o with cache := c }, .value v)
    | (.error e, c) => ({ o with cache := c }, .exn e)
  | .assign d => ({ data := d, cache := [] }, .done)
  | .setitem f =>
    match f o.data with
    | .ok d => ({ data := d, cache := [] }, .done)
    | .error e => (o, .exn e)
  | .inplace p =>
    match runProg (invoke K n) p o.data o.cache with
    | (.ok d, _) => ({ data := d, cache := [] }, .done)
    | (.error e, c) => ({ o with cache := c }, .exn e)
  | .clear => ({ o with cache := [] }, .done)

/-- A history of user steps and the observations it produces. -/
def run {D V A : Type} (K : Cls D V A) (n : Nat) : Obj D V → List (Op D V A) → Obj D V × List (Out V)
  | o, [] => (o, [])
  | o, op :: ops =>
    let (o', out) := step K n o op
    let (o'', outs) := run K n o' ops
    (o'', out :: outs)

/-- A fresh object (cache.py:47-48, surface.py:110-123). -/
def fresh {D V : Type} (d : D) : Obj D V := { data := d, cache := [] }

end Surfalize.CacheM
