import Verif.Model.Filename

/-!
# Model of the regular expressions that filename templates are turned into (surfalize/batch.py:123-175)

`FilenameParser.construct_regex` pastes the literal text of a template into a regular expression, which pandas compiles
with `re.compile` and applies with `re.search` (batch.py:172). The model is of Python's `re` for the constructs that can
occur in such an expression: literal characters, `.`, `\d`, escaped punctuation, the three kinds of groups, alternatives and
the greedy quantifiers `+`, `*`, `?`. Sets, counted repetitions, anchors, lazy and possessive quantifiers, other escapes and
extensions are outside: the model then says so instead of giving an expression. Simplifications: digits are the ASCII
digits; group names with non-ASCII characters are outside.
-/
namespace Surfalize.Regex
open Surfalize

/-- A regular expression. -/
inductive Re where
  | chr (c : Char)
  | any
  | digit
  | eps
  | seq (a b : Re)
  | alt (a b : Re)
  | opt (a : Re)
  | star (a : Re)
  | plus (a : Re)
  | group (name : Option (List Char)) (a : Re)
  deriving DecidableEq, Repr

/-! ## Parsing (the part of Python's `re._parser` for these constructs) -/

/-- The kind of an open group. -/
inductive Kind where
  | top
  | plain
  | nocap
  | named (n : List Char)
  deriving DecidableEq, Repr

/-- An open group: the finished alternatives, the items of the current one but the last, and the last item, with the
information whether it carries a quantifier. -/
structure Frame where
  kind : Kind
  done : Option Re
  init : Re
  last : Option (Re × Bool)
  deriving DecidableEq, Repr

/-- Where the parser is: between items, behind a backslash, or inside the opening of a group. -/
inductive Mode where
  | normal
  | escape
  | openG
  | openQ
  | openP
  | name (acc : List Char)
  deriving DecidableEq, Repr

/-- The state of the parser: the innermost open group, the groups around it, the names used. -/
structure St where
  cur : Frame
  outer : List Frame
  mode : Mode
  names : List (List Char)
  deriving DecidableEq, Repr

/-- The outcome: an expression, `re.error`, or outside of the model. -/
inductive Parsed (α : Type) where
  | ok (a : α)
  | bad
  | outside
  deriving DecidableEq, Repr

/-- A group that has just been opened. -/
def Frame.fresh (k : Kind) : Frame := ⟨k, none, .eps, none⟩

/-- The items of the current alternative. -/
def Frame.branch (f : Frame) : Re := match f.last with | none => f.init | some (r, _) => .seq f.init r

/-- The alternatives of the group. -/
def Frame.body (f : Frame) : Re := match f.done with | none => f.branch | some d => .alt d f.branch

/-- Append an item. -/
def Frame.push (f : Frame) (r : Re) : Frame := { f with init := f.branch, last := some (r, false) }

/-- `|`. -/
def Frame.bar (f : Frame) : Frame := { f with done := some f.body, init := .eps, last := none }

/-- A quantifier: "nothing to repeat" is `re.error`; a second one (`+?`, `++`, `**`) is outside. -/
def Frame.quant (f : Frame) (q : Re → Re) : Parsed Frame :=
  match f.last with
  | none => .bad
  | some (_, true) => .outside
  | some (r, false) => .ok { f with last := some (q r, true) }

/-- The item that a closed group is. -/
def Frame.close (f : Frame) : Re :=
  match f.kind with
  | .top => f.body
  | .plain => .group none f.body
  | .nocap => f.body
  | .named n => .group (some n) f.body

/-- The first character of an identifier (ASCII). -/
def identStart (c : Char) : Bool := c.isAlpha || c == '_'

/-- Other characters of an identifier (ASCII). -/
def identChar (c : Char) : Bool := c.isAlphanum || c == '_'

/-- `str.isidentifier` for ASCII text. -/
def isIdent : List Char → Bool
  | [] => false
  | c :: s => identStart c && s.all identChar

/-- Characters with a meaning outside of the model. -/
def foreign (c : Char) : Bool := c == '[' || c == '{' || c == '^' || c == '$'

/-- Python's parser on one character. -/
def stepChar (s : St) (c : Char) : Parsed St :=
  match s.mode with
  | .normal =>
    if foreign c then .outside
    else if c = '.' then .ok { s with cur := s.cur.push .any }
    else if c = '\\' then .ok { s with mode := .escape }
    else if c = '(' then .ok { s with mode := .openG }
    else if c = ')' then
      match s.outer with
      | [] => .bad
      | f :: fs => .ok { s with cur := f.push s.cur.close, outer := fs }
    else if c = '|' then .ok { s with cur := s.cur.bar }
    else if c = '+' then match s.cur.quant .plus with | .ok f => .ok { s with cur := f } | .bad => .bad | .outside => .outside
    else if c = '*' then match s.cur.quant .star with | .ok f => .ok { s with cur := f } | .bad => .bad | .outside => .outside
    else if c = '?' then match s.cur.quant .opt with | .ok f => .ok { s with cur := f } | .bad => .bad | .outside => .outside
    else .ok { s with cur := s.cur.push (.chr c) }
  | .escape =>
    if c = 'd' then .ok { s with cur := s.cur.push .digit, mode := .normal }
    else if c.isAlphanum || 128 ≤ c.toNat then .outside
    else .ok { s with cur := s.cur.push (.chr c), mode := .normal }
  | .openG =>
    if c = '?' then .ok { s with mode := .openQ }
    else inGroup { s with cur := Frame.fresh .plain, outer := s.cur :: s.outer, mode := .normal } c
  | .openQ =>
    if c = ':' then .ok { s with cur := Frame.fresh .nocap, outer := s.cur :: s.outer, mode := .normal }
    else if c = 'P' then .ok { s with mode := .openP }
    else .outside
  | .openP => if c = '<' then .ok { s with mode := .name [] } else .outside
  | .name acc =>
    if c = '>' then
      if acc.any (fun x => decide (128 ≤ x.toNat)) then .outside
      else if isIdent acc then
        if acc ∈ s.names then .bad
        else .ok { cur := Frame.fresh (.named acc), outer := s.cur :: s.outer, mode := .normal, names := s.names ++ [acc] }
      else .bad
    else .ok { s with mode := .name (acc ++ [c]) }
where
  /-- The first character inside a plain group (as in the normal mode). -/
  inGroup (s : St) (c : Char) : Parsed St :=
    if foreign c then .outside
    else if c = '.' then .ok { s with cur := s.cur.push .any }
    else if c = '\\' then .ok { s with mode := .escape }
    else if c = '(' then .ok { s with mode := .openG }
    else if c = ')' then
      match s.outer with
      | [] => .bad
      | f :: fs => .ok { s with cur := f.push s.cur.close, outer := fs }
    else if c = '|' then .ok { s with cur := s.cur.bar }
    else if c = '+' || c = '*' || c = '?' then .bad
    else .ok { s with cur := s.cur.push (.chr c) }

/-- All characters. -/
def run (s : St) : List Char → Parsed St
  | [] => .ok s
  | c :: cs => match stepChar s c with
    | .ok s' => run s' cs
    | .bad => .bad
    | .outside => .outside

/-- At the end of the expression all groups must be closed. -/
def finish (s : St) : Parsed Re :=
  match s.mode, s.outer with
  | .normal, [] => .ok s.cur.body
  | _, _ => .bad

/-- `re.compile(pattern)`. -/
def compile (p : List Char) : Parsed Re :=
  match run ⟨Frame.fresh .top, [], .normal, []⟩ p with
  | .ok s => finish s
  | .bad => .bad
  | .outside => .outside

/-! ## Matching -/

/-- The text still to be matched, and the groups matched so far. -/
structure Pos where
  rest : List Char
  caps : List (Option (List Char) × List Char)
  deriving DecidableEq, Repr

/-- A greedy loop: one more round if it consumes something, otherwise what follows. -/
def loop {β : Type} (one : Pos → (Pos → Option β) → Option β) : Nat → Pos → (Pos → Option β) → Option β
  | 0, p, k => k p
  | n + 1, p, k =>
    (one p fun q => if q.rest.length < p.rest.length then loop one n q k else none).or (k p)

/-- Python's backtracking matcher: `k` is what follows. -/
def mt {β : Type} : Re → Pos → (Pos → Option β) → Option β
  | .chr c, p, k => match p.rest with | [] => none | x :: r => if x = c then k { p with rest := r } else none
  | .any, p, k => match p.rest with | [] => none | x :: r => if x = '\n' then none else k { p with rest := r }
  | .digit, p, k => match p.rest with | [] => none | x :: r => if x.isDigit then k { p with rest := r } else none
  | .eps, p, k => k p
  | .seq a b, p, k => mt a p fun q => mt b q k
  | .alt a b, p, k => (mt a p k).or (mt b p k)
  | .opt a, p, k => (mt a p k).or (k p)
  | .star a, p, k => loop (mt a) p.rest.length p k
  | .plus a, p, k => mt a p fun q => loop (mt a) q.rest.length q k
  | .group n a, p, k => mt a p fun q => k { q with caps := q.caps ++ [(n, p.rest.take (p.rest.length - q.rest.length))] }

/-- `re.search`: the leftmost start that matches; the groups in the order in which they close. -/
def search (r : Re) : List Char → Option (List (Option (List Char) × List Char))
  | [] => mt r ⟨[], []⟩ fun p => some p.caps
  | c :: s =>
    match mt r ⟨c :: s, []⟩ fun p => some p.caps with
    | some x => some x
    | none => search r s

/-- batch.py:170-172: what `extract_from` finds in a file name: the regular expression of the template, compiled and searched. -/
def extract (template file : List Char) : Except Err (Parsed (Option (List (Option (List Char) × List Char)))) :=
  match Filename.parseTemplate template with
  | .error e => .error e
  | .ok (tokens, seps) =>
    match Filename.constructRegex tokens seps with
    | .error e => .error e
    | .ok p =>
      match compile p with
      | .ok r => .ok (.ok (search r file))
      | .bad => .ok .bad
      | .outside => .ok .outside

end Surfalize.Regex
