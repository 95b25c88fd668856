import Verif.Model.Arguments
import Verif.Props.Output
/-
C85: the command line parsing of source_py/simulation/arguments.py.
-/
namespace SqPerc

/-- C85: `test2` prints the same for every command line: the option `--length` without a value; the number 100 and everything after it, including
`--ensemble 20`, are left over as arguments. -/
theorem C85_test2 (argv : List Text) :
    argTest2 argv = ("[('--length', '')]\n['100', '--ensemble', '20']\n".toList, none) := by
  simp only [argTest2]
  decide +kernel

/-- C85: `test` prints two lines and then the arguments, one per line. -/
theorem C85_test (argv : List Text) (h : ∀ a ∈ argv, '\n' ∉ a) :
    lines (argTest argv) = ["<class 'list'>".toList, "The command line arguments are:".toList] ++ argv ++ [[]] := by
  have e := lines_flatMap (fun a : Text => a) argv [] h
  rw [List.append_nil, List.map_id'] at e
  rw [argTest, List.append_assoc, lines_println _ _ (by decide), lines_println _ _ (by decide)]
  show _ :: _ :: lines (argv.flatMap println) = _
  rw [show (argv.flatMap println) = argv.flatMap fun a => println a from rfl, e]
  rfl

/-! ### What can be given on such a command line -/

theorem isPrefixOf_iff {a b : Text} : a.isPrefixOf b = true ↔ a <+: b := List.isPrefixOf_iff_prefix

/-- The long options of the project never take a value. -/
theorem longHasArgs_false {opt : Text} {r : Bool × Text} (h : longHasArgs opt argLong = some r) : r.1 = false ∧ r.2 ∈ argLong ∧ opt <+: r.2 := by
  unfold longHasArgs at h
  obtain ⟨poss, hp⟩ : ∃ poss, poss = argLong.filter fun o => opt.isPrefixOf o := ⟨_, rfl⟩
  rw [← hp] at h
  have hmem : ∀ o ∈ poss, o ∈ argLong ∧ opt <+: o := by
    intro o ho
    rw [hp, List.mem_filter] at ho
    exact ⟨ho.1, isPrefixOf_iff.1 ho.2⟩
  have hno : ∀ o ∈ argLong, o.getLast? ≠ some '=' := by decide +kernel
  simp only at h
  split at h
  · cases h
  · split at h
    · rename_i hm
      rw [← Option.some.inj h]
      exact ⟨rfl, (hmem _ hm).1, List.prefix_rfl⟩
    · split at h
      · rename_i hm
        exact absurd (by simp) (hno _ (hmem _ hm).1)
      · split at h
        · rename_i u _ _ _
          split at h
          · rename_i hl
            exact absurd hl (hno _ (hmem u (by simp)).1)
          · rw [← Option.some.inj h]
            exact ⟨rfl, hmem u (by simp)⟩
        · cases h

theorem takeWhile_noEq : ∀ opt : Text, '=' ∉ opt → opt.takeWhile (fun c => decide (c ≠ '=')) = opt
  | [], _ => rfl
  | c :: t, he => by
    simp only [List.mem_cons, not_or] at he
    rw [List.takeWhile_cons_of_pos (by simpa using fun h => he.1 h.symm), takeWhile_noEq t he.2]

theorem doLongs_spec {opt : Text} {next : Option Text} {r : (Text × Text) × Bool} (h : doLongs argLong next opt = some r) :
    '=' ∉ opt ∧ r.2 = false ∧ r.1.2 = [] ∧ ∃ o ∈ argLong, r.1.1 = "--".toList ++ o ∧ opt <+: o := by
  unfold doLongs at h
  simp only at h
  obtain ⟨q, hq, h⟩ := Option.bind_eq_some_iff.1 h
  obtain ⟨h1, h2, h3⟩ := longHasArgs_false hq
  rw [if_neg (by rw [h1]; simp)] at h
  by_cases he : '=' ∈ opt
  · rw [if_pos he] at h
    cases h
  · rw [if_neg he] at h
    obtain rfl := Option.some.inj h
    refine ⟨he, rfl, rfl, q.2, h2, rfl, ?_⟩
    have := takeWhile_noEq opt he
    rwa [this] at h3

theorem shortHasArg_spec (c : Char) : shortHasArg c argShort = if c = 'L' ∨ c = 'E' then some true else if c = 'h' then some false else none := by
  by_cases h1 : c = 'L'
  · subst h1; decide +kernel
  by_cases h2 : c = 'E'
  · subst h2; decide +kernel
  by_cases h3 : c = 'h'
  · subst h3; decide +kernel
  have e : argShort = ['L', ':', 'E', ':', 'h'] := by decide +kernel
  rw [e]
  simp [shortHasArg, h1, h2, h3]

theorem doShorts_spec {next : Option Text} : ∀ {t : Text} {r : List (Text × Text) × Bool}, doShorts argShort next t = some r →
    (∀ p ∈ r.1, (p.1 = "-h".toList ∧ p.2 = []) ∨ p.1 = "-L".toList ∨ p.1 = "-E".toList) ∧ (r.2 = true → ∃ v, next = some v) := by
  intro t
  induction t with
  | nil => intro r h; cases h; exact ⟨by simp, fun h => (by cases h)⟩
  | cons c rest ih =>
    intro r h
    unfold doShorts at h
    rw [shortHasArg_spec] at h
    split at h
    · rename_i hc
      have hn : ∀ v : Text, ∀ p ∈ [((['-', c] : Text), v)], (p.1 = "-h".toList ∧ p.2 = []) ∨ p.1 = "-L".toList ∨ p.1 = "-E".toList := by
        intro v p hp
        rw [List.mem_singleton.1 hp]
        rcases hc with rfl | rfl
        · exact .inr (.inl rfl)
        · exact .inr (.inr rfl)
      simp only [Option.bind_eq_bind, Option.bind_some, if_true] at h
      split at h
      · obtain ⟨v, hv, h⟩ := Option.bind_eq_some_iff.1 h
        obtain rfl := Option.some.inj h
        exact ⟨hn v, fun _ => ⟨v, hv⟩⟩
      · obtain rfl := Option.some.inj h
        exact ⟨hn rest, fun h => (by cases h)⟩
    · split at h
      · rename_i hc
        simp only [Option.bind_eq_bind, Option.bind_some, Bool.false_eq_true, if_false] at h
        obtain ⟨q, hq, h⟩ := Option.bind_eq_some_iff.1 h
        obtain rfl := Option.some.inj h
        obtain ⟨h1, h2⟩ := ih hq
        refine ⟨fun p hp => ?_, h2⟩
        rcases List.mem_cons.1 hp with rfl | hp
        · subst hc; exact .inl ⟨rfl, rfl⟩
        · exact h1 p hp
      · cases h

/-- C85: whatever the arguments are, a successful parse returns as options only `-L`, `-E` (with a value), `-h` and the three long options, the
long ones always with an empty value; what is left over is an end piece of the arguments. -/
theorem C85_options : ∀ (args : List Text) {opts : List (Text × Text)} {rest : List Text}, getopt argShort argLong args = some (opts, rest) →
    (∀ p ∈ opts, (p.1 = "-h".toList ∧ p.2 = []) ∨ p.1 = "-L".toList ∨ p.1 = "-E".toList ∨
      (p.2 = [] ∧ (p.1 = "--help".toList ∨ p.1 = "--length".toList ∨ p.1 = "--ensemble".toList))) ∧ rest <:+ args := by
  have main : ∀ n (args : List Text), args.length = n → ∀ {opts : List (Text × Text)} {rest : List Text}, getopt argShort argLong args = some (opts, rest) →
    (∀ p ∈ opts, (p.1 = "-h".toList ∧ p.2 = []) ∨ p.1 = "-L".toList ∨ p.1 = "-E".toList ∨
      (p.2 = [] ∧ (p.1 = "--help".toList ∨ p.1 = "--length".toList ∨ p.1 = "--ensemble".toList))) ∧ rest <:+ args := by
    intro n
    induction n using Nat.strong_induction_on with
    | _ n ih =>
      intro args hn opts rest h
      match args, hn, h with
      | [], _, h =>
        cases h
        exact ⟨by simp, List.suffix_rfl⟩
      | a :: tl, hn, h =>
        unfold getopt at h
        split at h
        · split at h
          · obtain ⟨rfl, rfl⟩ := Prod.mk.inj (Option.some.inj h)
            exact ⟨by simp, List.suffix_cons _ _⟩
          · obtain ⟨found, hfd⟩ : ∃ f, f = (if ['-', '-'].isPrefixOf a then (doLongs argLong tl.head? (a.drop 2)).map fun r => ([r.1], r.2)
              else doShorts argShort tl.head? (a.drop 1)) := ⟨_, rfl⟩
            simp only [← hfd] at h
            cases found with
            | none => cases h
            | some q =>
              obtain ⟨os, used⟩ := q
              have hos : (∀ p ∈ os, (p.1 = "-h".toList ∧ p.2 = []) ∨ p.1 = "-L".toList ∨ p.1 = "-E".toList ∨
                  (p.2 = [] ∧ (p.1 = "--help".toList ∨ p.1 = "--length".toList ∨ p.1 = "--ensemble".toList))) := by
                split at hfd
                · obtain ⟨r, hr, e⟩ := Option.map_eq_some_iff.1 hfd.symm
                  obtain ⟨rfl, rfl⟩ := Prod.mk.inj e
                  obtain ⟨_, _, h3, o, ho, h4, _⟩ := doLongs_spec hr
                  intro p hp
                  rw [List.mem_singleton.1 hp]
                  refine .inr (.inr (.inr ⟨h3, ?_⟩))
                  rw [h4]
                  simp only [argLong, List.mem_cons, List.not_mem_nil, or_false] at ho
                  rcases ho with rfl | rfl | rfl
                  · exact .inl rfl
                  · exact .inr (.inl rfl)
                  · exact .inr (.inr rfl)
                · intro p hp
                  rcases (doShorts_spec hfd.symm).1 p hp with h | h | h
                  · exact .inl h
                  · exact .inr (.inl h)
                  · exact .inr (.inr (.inl h))
              have step : ∀ tl' : List Text, tl' <:+ tl → (getopt argShort argLong tl').map (fun r => (os ++ r.1, r.2)) = some (opts, rest) →
                  (∀ p ∈ opts, (p.1 = "-h".toList ∧ p.2 = []) ∨ p.1 = "-L".toList ∨ p.1 = "-E".toList ∨
                    (p.2 = [] ∧ (p.1 = "--help".toList ∨ p.1 = "--length".toList ∨ p.1 = "--ensemble".toList))) ∧ rest <:+ a :: tl := by
                intro tl' hs h
                obtain ⟨r, hr, e⟩ := Option.map_eq_some_iff.1 h
                obtain ⟨rfl, rfl⟩ := Prod.mk.inj e
                have hlen := hs.length_le
                obtain ⟨g1, g2⟩ := ih tl'.length (by simp at hn; omega) tl' rfl hr
                refine ⟨fun p hp => ?_, (g2.trans hs).trans (List.suffix_cons _ _)⟩
                rcases List.mem_append.1 hp with hp | hp
                · exact hos p hp
                · exact g1 p hp
              simp only at h
              split at h
              · exact step _ (List.suffix_cons _ _) h
              · exact step _ List.suffix_rfl h
        · obtain ⟨rfl, rfl⟩ := Prod.mk.inj (Option.some.inj h)
          exact ⟨by simp, List.suffix_rfl⟩
  exact fun args => main _ args rfl

/-- C85: `--length=…` and the like, in first place, are always an error. -/
theorem C85_no_value (opt : Text) (rest : List Text) (h : '=' ∈ opt) : getopt argShort argLong (("--".toList ++ opt) :: rest) = none := by
  have h0 : opt ≠ [] := by rintro rfl; simp at h
  have e2 : ("--".toList ++ opt : Text) = '-' :: '-' :: opt := rfl
  rw [e2]
  unfold getopt
  rw [if_pos ⟨rfl, by simp⟩, if_neg (by simpa using h0)]
  have : doLongs argLong rest.head? opt = none := by
    cases e : doLongs argLong rest.head? opt with
    | none => rfl
    | some r => exact absurd h (doLongs_spec e).1
  have hp : (['-', '-'] : Text).isPrefixOf ('-' :: '-' :: opt) = true := by simp [List.isPrefixOf]
  simp only [hp, if_true, List.drop_succ_cons, List.drop_zero, this, Option.map_none]

/-- C85: the short form works: `-L a -E b` gives both values, whatever they are, and leaves nothing over. -/
theorem C85_short_form (a b : Text) :
    getopt argShort argLong ["-L".toList, a, "-E".toList, b] = some ([("-L".toList, a), ("-E".toList, b)], []) := by
  have hL := shortHasArg_spec 'L'
  have hE := shortHasArg_spec 'E'
  have e1 : "-L".toList = ['-', 'L'] := rfl
  have e2 : "-E".toList = ['-', 'E'] := rfl
  rw [e1, e2]
  simp [getopt, doShorts, hL, hE, List.isPrefixOf]

/-- C85: a word that is no option ends the parsing: it and all that follows is left over. -/
theorem C85_stops (a : Text) (rest : List Text) (h : a.head? ≠ some '-') : getopt argShort argLong (a :: rest) = some ([], a :: rest) := by
  unfold getopt
  rw [if_neg (fun hc => h hc.1)]

example : getopt argShort argLong ["--len".toList, "-hL5".toList, "7".toList] = some ([("--length".toList, []), ("-h".toList, []), ("-L".toList, ['5'])], [['7']]) := by
  decide +kernel
example : getopt argShort argLong ["--length=5".toList] = none := by decide +kernel

/-- Cutting a text at each white space character. -/
def cutAt : Text → List Text
  | [] => [[]]
  | c :: t => if c.isWhitespace then [] :: cutAt t else match cutAt t with
    | [] => [[c]]
    | w :: ws => (c :: w) :: ws

theorem pySplit_acc : ∀ (t cur : Text), ∃ w ws, cutAt t = w :: ws ∧ pySplit cur t = ((cur ++ w) :: ws).filter (· ≠ [])
  | [], cur => ⟨[], [], rfl, by
    rw [List.append_nil, pySplit]
    by_cases h : cur = [] <;> simp [h]⟩
  | c :: t, cur => by
    rw [pySplit, cutAt]
    by_cases hc : c.isWhitespace = true
    · obtain ⟨w, ws, e, h⟩ := pySplit_acc t []
      rw [if_pos hc, if_pos hc]
      refine ⟨[], cutAt t, rfl, ?_⟩
      rw [h, e, List.append_nil, List.nil_append]
      by_cases hcur : cur = []
      · rw [if_pos hcur, hcur, List.filter_cons_of_neg (a := ([] : Text)) (by simp)]
      · rw [if_neg hcur, List.filter_cons_of_pos (a := cur) (by simpa using hcur)]
    · obtain ⟨w, ws, e, h⟩ := pySplit_acc t (cur ++ [c])
      rw [if_neg hc, if_neg hc, e]
      exact ⟨c :: w, ws, rfl, by rw [h]; simp⟩

/-- C85: `split()` gives the pieces of the text between white space, without the empty ones. -/
theorem C85_split (t : Text) : pySplit [] t = (cutAt t).filter (· ≠ []) := by
  obtain ⟨w, ws, e, h⟩ := pySplit_acc t []
  rw [h, e]; rfl

example : pySplit [] "  -L 10  -E 5 ".toList = ["-L".toList, "10".toList, "-E".toList, "5".toList] := by decide +kernel

end SqPerc
