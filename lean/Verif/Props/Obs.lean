import Verif.Proof.Counts
import Verif.Props.Demo
/-
What a user can observe of a percolation object, in terms of its public queries.
-/
namespace SqPerc

variable {α : Type} {L : Nat} {env : Env α} {v : Variant} {S : Perc α} {A : Abs α}

/-- Site `s` is occupied: `get_site_by_id(s).is_occupied()`. -/
def Perc.Occ (S : Perc α) (s : Nat) : Prop := ∃ st, S.lat.getSite s = .ok st ∧ st.isOccupied = true

theorem Sim.occ_iff (M : Sim env L S A) (s : Nat) : S.Occ s ↔ VOcc L A.V s := by
  unfold Perc.Occ
  rw [M.lat]
  constructor
  · rintro ⟨st, h1, h2⟩
    obtain ⟨hs, rfl⟩ := getSite_ok h1
    exact ⟨hs, by simpa [isOccupied_mk] using h2⟩
  · rintro ⟨hs, h⟩
    exact ⟨_, getSite_mk hs, by simpa [isOccupied_mk] using h⟩

/-- Occupation as a Boolean, for examples. -/
def Perc.occB (S : Perc α) (s : Nat) : Bool := match S.lat.getSite s with | .ok st => st.isOccupied | .error _ => false

theorem Perc.occB_iff {S : Perc α} {s : Nat} : S.occB s = true ↔ S.Occ s := by
  unfold Perc.occB Perc.Occ
  cases h : S.lat.getSite s with
  | error e => simp
  | ok st => simp

theorem Sim.occ_eq (M : Sim env L S A) : S.Occ = VOcc L A.V := funext fun s => propext (M.occ_iff s)

theorem Sim.siteGid (M : Sim env L S A) {s : Nat} (hs : s < L * L) : S.lat.getSiteGid s = .ok (A.V.sg s) := by
  rw [M.lat]; exact getSiteGid_mk hs

theorem Sim.bondGid (M : Sim env L S A) {b : Nat} (hb : b < 2 * (L * L)) : S.lat.getBondGid b = .ok (A.V.bg b) := by
  rw [M.lat]; exact getBondGid_mk hb

theorem Sim.getBonds (M : Sim env L S A) {g : Int} (hg : g ∈ gids L) : S.pool.getBonds g = .ok (A.P.cb g) := by
  rw [M.pool]; exact getBonds_mk (mem_gids.1 hg).1 (mem_gids.1 hg).2

theorem Sim.getSites (M : Sim env L S A) {g : Int} (hg : g ∈ gids L) : S.pool.getSites g = .ok (A.P.cs g) := by
  rw [M.pool]; exact getSites_mk (mem_gids.1 hg).1 (mem_gids.1 hg).2

theorem Sim.bondCount (M : Sim env L S A) {g : Int} (hg : g ∈ gids L) : S.pool.bondCount g = .ok (A.P.len g) := by
  rw [M.pool]; exact bondCount_mk (mem_gids.1 hg).1 (mem_gids.1 hg).2

theorem natCast_mem_gids {g : Nat} (h : g < 2 * (L * L)) : (g : Int) ∈ gids L :=
  mem_gids.2 ⟨Int.natCast_nonneg _, by exact_mod_cast h⟩

theorem exists_nat_of_mem_gids {g : Int} (h : g ∈ gids L) : ∃ n : Nat, n < 2 * (L * L) ∧ g = n := by
  obtain ⟨h0, h1⟩ := mem_gids.1 h
  exact ⟨g.toNat, by omega, by omega⟩

end SqPerc
