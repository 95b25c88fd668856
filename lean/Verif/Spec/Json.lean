/-
Reading JSON.
-/
namespace SqPerc

/-- A JSON value; a number is kept as it is written. -/
inductive JsonValue
  | num (t : List Char)
  | str (t : List Char)
  | arr (l : List JsonValue)
  | obj (l : List (List Char × JsonValue))

/-- White space. -/
def jsonSpace (c : Char) : Bool := c == ' ' || c == '\t' || c == '\n' || c == '\r'

/-- What follows white space. -/
def skipSpace (t : List Char) : List Char := t.dropWhile jsonSpace

/-- Characters of which numbers are made. -/
def jsonNum (c : Char) : Bool := c.isDigit || c == '-' || c == '+' || c == '.' || c == 'e' || c == 'E'

/-- The character meant by a backslash and a character. -/
def unescape (c : Char) : Option Char :=
  if c = 'n' then some '\n' else if c = 't' then some '\t' else if c = 'r' then some '\r'
  else if c = '"' ∨ c = '\\' ∨ c = '/' then some c else none

/-- The rest of a string after the opening quote, and what follows it. -/
def parseString : List Char → Option (List Char × List Char)
  | [] => none
  | [c] => if c = '"' then some ([], []) else none
  | c :: d :: t =>
    if c = '"' then some ([], d :: t)
    else if c = '\\' then
      match unescape d, parseString t with
      | some d', some (s, r) => some (d' :: s, r)
      | _, _ => none
    else (parseString (d :: t)).map fun p => (c :: p.1, p.2)

mutual
/-- A value at the beginning of a text, and what follows it; the number bounds the depth of the recursion. -/
def parseValue : Nat → List Char → Option (JsonValue × List Char)
  | 0, _ => none
  | f + 1, t => match skipSpace t with
    | [] => none
    | c :: r =>
      if c = '"' then (parseString r).map fun p => (.str p.1, p.2)
      else if c = '[' then
        if (skipSpace r).head? = some ']' then some (.arr [], (skipSpace r).tail) else (parseItems f r).map fun p => (.arr p.1, p.2)
      else if c = '{' then
        if (skipSpace r).head? = some '}' then some (.obj [], (skipSpace r).tail) else (parseMembers f r).map fun p => (.obj p.1, p.2)
      else if jsonNum c then some (.num ((c :: r).takeWhile jsonNum), (c :: r).dropWhile jsonNum)
      else none
/-- The elements of an array up to the closing bracket. -/
def parseItems : Nat → List Char → Option (List JsonValue × List Char)
  | 0, _ => none
  | f + 1, t => match parseValue f t with
    | none => none
    | some (v, r) => match skipSpace r with
      | ',' :: r' => (parseItems f r').map fun p => (v :: p.1, p.2)
      | ']' :: r' => some ([v], r')
      | _ => none
/-- The members of an object up to the closing brace. -/
def parseMembers : Nat → List Char → Option (List (List Char × JsonValue) × List Char)
  | 0, _ => none
  | f + 1, t => match skipSpace t with
    | '"' :: r => match parseString r with
      | none => none
      | some (k, r1) => match skipSpace r1 with
        | ':' :: r2 => match parseValue f r2 with
          | none => none
          | some (v, r3) => match skipSpace r3 with
            | ',' :: r4 => (parseMembers f r4).map fun p => ((k, v) :: p.1, p.2)
            | '}' :: r4 => some ([(k, v)], r4)
            | _ => none
        | _ => none
    | _ => none
end

/-- The value written in a text. -/
def readJson (t : List Char) : Option JsonValue :=
  match parseValue t.length t with
  | some (v, r) => if skipSpace r = [] then some v else none
  | none => none

/-- The value of the member `key` of an object (the last one if there are several). -/
def JsonValue.get (key : String) : JsonValue → Option JsonValue
  | .obj l => (l.reverse.find? fun p => p.1 = key.toList).map Prod.snd
  | _ => none

/-- The elements of an array. -/
def JsonValue.items : JsonValue → Option (List JsonValue)
  | .arr l => some l
  | _ => none

/-- The text of a string. -/
def JsonValue.text : JsonValue → Option (List Char)
  | .str t => some t
  | _ => none

/-- An integer. -/
def JsonValue.int : JsonValue → Option Int
  | .num ('-' :: t) => if t ≠ [] ∧ t.all Char.isDigit = true then some (-(Nat.ofDigitChars 10 t 0 : Int)) else none
  | .num t => if t ≠ [] ∧ t.all Char.isDigit = true then some (Nat.ofDigitChars 10 t 0 : Int) else none
  | _ => none

-- a sample
example : ((readJson "{\"a\": [1, -2.5e3], \"b\": {}, \"c\\\"\": \"x\"}".toList).bind (·.get "a")).bind (·.items) |>.map (·.length) |> (· = some 2) := by
  decide +kernel

end SqPerc
