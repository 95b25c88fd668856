import Verif.Model.History
/-
Any interference with the list of site ids: `get_site_id_sequence()` (percolation_sq_lattice.py:223-224) returns the list in use itself, and
`set_custome_site_id_list` (lines 156-170) keeps the list of the caller, so that others can also append to it, remove entries from it or
replace its contents, in every mode.
-/
namespace SqPerc

/-- Histories of one object in which, between any two calls, the contents of the list of site ids are replaced by any other site ids, as
many as one likes.  (An entry that is not a site id is not allowed: a negative one would be taken for a position from the end of the site list in
lattice.py:231-233.) -/
inductive Loose {α : Type} (env : Env α) (v : Variant) (L : Nat) : Perc α → Prop
  | new {draws : Nat → Nat} {S : Perc α} : Perc.new env L draws = .ok S → Loose env v L S
  | step {S S' : Perc α} (op : Op) : Loose env v L S → SqPerc.step env v S op = .ok S' → Loose env v L S'
  | caught {S : Perc α} {e : PyErr} (op : Op) : Loose env v L S → SqPerc.step env v S op = .error e → e ≠ .outOfFuel →
      Loose env v L (stepRaised env v S op)
  | write {S : Perc α} (l : List Nat) : Loose env v L S → (∀ x ∈ l, x < L * L) → Loose env v L { S with siteIds := l }

end SqPerc
