import Verif.Model.Output
/-
source_py/simulation/arguments.py and the part of the standard library module `getopt` it uses.  `none` stands for `getopt.GetoptError`.
-/
namespace SqPerc

/-- `getopt.short_has_arg(opt, shortopts)`: the letter must occur in the string, and takes a value if a colon follows. -/
def shortHasArg (opt : Char) : Text → Option Bool
  | [] => none
  | c :: rest => if opt = c ∧ c ≠ ':' then some (decide (rest.head? = some ':')) else shortHasArg opt rest

/-- `getopt.do_shorts(opts, optstring, shortopts, args)`: the options found in one argument, and whether the next argument was used up. -/
def doShorts (shortopts : Text) (next : Option Text) : Text → Option (List (Text × Text) × Bool)
  | [] => some ([], false)
  | c :: rest => do
    let h ← shortHasArg c shortopts
    if h then
      if rest = [] then do
        let v ← next
        return ([(['-', c], v)], true)
      else return ([(['-', c], rest)], false)
    else do
      let r ← doShorts shortopts next rest
      return ((['-', c], []) :: r.1, r.2)

/-- `getopt.long_has_args(opt, longopts)`. -/
def longHasArgs (opt : Text) (longopts : List Text) : Option (Bool × Text) :=
  let poss := longopts.filter fun o => opt.isPrefixOf o
  if poss = [] then none
  else if opt ∈ poss then some (false, opt)
  else if opt ++ ['='] ∈ poss then some (true, opt)
  else match poss with
    | [u] => if u.getLast? = some '=' then some (true, u.dropLast) else some (false, u)
    | _ => none

/-- `getopt.do_longs(opts, opt, longopts, args)`: the option found in one argument, and whether the next argument was used up. -/
def doLongs (longopts : List Text) (next : Option Text) (opt : Text) : Option ((Text × Text) × Bool) := do
  let name := opt.takeWhile (· ≠ '=')
  let optarg := if '=' ∈ opt then some (opt.drop (name.length + 1)) else none
  let r ← longHasArgs name longopts
  if r.1 then
    match optarg with
    | some v => return (("--".toList ++ r.2, v), false)
    | none => do
      let v ← next
      return (("--".toList ++ r.2, v), true)
  else match optarg with
    | some _ => none
    | none => return (("--".toList ++ r.2, []), false)

/-- `getopt.getopt(args, shortopts, longopts)`: the options and the remaining arguments. -/
def getopt (shortopts : Text) (longopts : List Text) : List Text → Option (List (Text × Text) × List Text)
  | [] => some ([], [])
  | a :: rest =>
    if a.head? = some '-' ∧ a ≠ ['-'] then
      if a = ['-', '-'] then some ([], rest)
      else
        let found := if ['-', '-'].isPrefixOf a then (doLongs longopts rest.head? (a.drop 2)).map fun r => ([r.1], r.2)
          else doShorts shortopts rest.head? (a.drop 1)
        match found with
        | none => none
        | some (os, used) =>
          match used, rest with
          | true, _ :: rest' => (getopt shortopts longopts rest').map fun r => (os ++ r.1, r.2)
          | _, rest => (getopt shortopts longopts rest).map fun r => (os ++ r.1, r.2)
    else some ([], a :: rest)

/-- Python `s.split()`: the words of a text; `cur` is the word read so far. -/
def pySplit : Text → Text → List Text
  | cur, [] => if cur = [] then [] else [cur]
  | cur, c :: t => if c.isWhitespace then (if cur = [] then pySplit [] t else cur :: pySplit [] t) else pySplit (cur ++ [c]) t

/-- `str(l)` of a list of pairs of strings (without quotes and backslashes). -/
def pairListText (l : List (Text × Text)) : Text :=
  "[".toList ++ commaSep (l.map fun p => "('".toList ++ p.1 ++ "', '".toList ++ p.2 ++ "')".toList) ++ "]".toList

/-- arguments.py:2-10 `test`: the printed text for the command line `argv`. -/
def argTest (argv : List Text) : Text :=
  println "<class 'list'>".toList ++ println "The command line arguments are:".toList ++ argv.flatMap println

/-- arguments.py:21: the short options. -/
def argShort : Text := "L:E:h".toList

/-- arguments.py:21: the long options. -/
def argLong : List Text := ["help".toList, "length".toList, "ensemble".toList]

/-- arguments.py:13-27 `test2`: the printed text for the command line `argv` and the exit status if the program exits.  Line 18 overwrites the
arguments taken from the command line in line 17. -/
def argTest2 (argv : List Text) : Text × Option Nat :=
  let _fromCommandLine := argv.drop 1
  let argv := pySplit [] "--length 100 --ensemble 20".toList
  match getopt argShort argLong argv with
  | some (opts, args) => (println (pairListText opts) ++ println (strListText args), none)
  | none => (println "Something went wrong!".toList, some 2)

end SqPerc
