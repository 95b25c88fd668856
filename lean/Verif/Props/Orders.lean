import Verif.Props.Ensemble
/-
The placement orders of an ensemble: the tables of the drivers in terms of any list of orders in which the realisations place their sites.
-/
namespace SqPerc

variable {α : Type} {L : Nat} {env : Env α} {v : Variant} {S S' : Perc α}

/-- The realisations of an ensemble with the random numbers `rs` place their sites in the orders `qs`. -/
def Orders (env : Env α) (v : Variant) (L : Nat) (ctor : Nat → Nat) (rs : List RunDraws) (qs : List (List Nat)) : Prop :=
  ∃ S0 Ss, Perc.new env L ctor = .ok S0 ∧ Realised env v S0 rs Ss ∧ List.Forall₂ (fun S q => ∃ F, Finished env v L S q F) Ss qs

theorem Realised.unique {rs : List RunDraws} {Ss Ts : List (Perc α)} (h : Realised env v S rs Ss) (h' : Realised env v S rs Ts) : Ss = Ts := by
  induction h generalizing Ts with
  | nil => cases h'; rfl
  | cons h1 h2 _ ih =>
    cases h' with
    | cons h1' h2' h3' =>
      rw [h1] at h1'
      obtain rfl := Except.ok.inj h1'
      rw [h2] at h2'
      obtain rfl := Except.ok.inj h2'
      rw [ih h3']

theorem tableOf_inj {N : Nat} {F G : Nat → Nat → α} (h : tableOf N F = tableOf N G) {k : Nat} (hk : k < N) :
    F k 0 = G k 0 ∧ F k 1 = G k 1 ∧ F k 2 = G k 2 ∧ F k 3 = G k 3 := by
  have := congrArg (·[k]?) h
  simp only [tableOf, List.getElem?_map, List.getElem?_range hk, Option.map_some, rowOf, Option.some.injEq, List.cons.injEq] at this
  exact ⟨this.1, this.2.1, this.2.2.1, this.2.2.2.1⟩

/-- The entries of a data array do not depend on the description of the order. -/
theorem Finished.swap {q q' : List Nat} {F F' : Nat → Nat → α} (h : Finished env v L S q F) (h' : Finished env v L S q' F') :
    Finished env v L S q' F := by
  have e : ∀ k < L * L, _ := fun k hk => tableOf_inj (Except.ok.inj (h.array.symm.trans h'.array)) hk
  exact ⟨h'.trace, h'.perm, h.array, fun k hk => (e k hk).1.trans (h'.prob k hk), fun P hP k hk => by rw [(e k hk).2.1]; exact h'.entropyRel P hP k hk,
    fun k hk => (e k hk).2.2.1.trans (h'.largest k hk), fun k hk => (e k hk).2.2.2.trans (h'.wrapping k hk)⟩

theorem swap_all {xs : List (Perc α × List Nat × (Nat → Nat → α))} {Ss : List (Perc α)} {qs : List (List Nat)}
    (hq : List.Forall₂ (fun S q => ∃ F, Finished env v L S q F) Ss qs) (hx : ∀ x ∈ xs, Finished env v L x.1 x.2.1 x.2.2) (e : xs.map (·.1) = Ss) :
    ∃ zs : List (Perc α × List Nat × (Nat → Nat → α)), zs.map (·.1) = Ss ∧ zs.map (·.2.1) = qs ∧ zs.map (·.2.2) = xs.map (·.2.2) ∧
      ∀ z ∈ zs, Finished env v L z.1 z.2.1 z.2.2 := by
  induction hq generalizing xs with
  | nil =>
    obtain rfl := List.map_eq_nil_iff.1 e
    exact ⟨[], rfl, rfl, rfl, fun z hz => by cases hz⟩
  | @cons S q Ss qs h _ ih =>
    cases xs with
    | nil => cases e
    | cons x xs =>
      rw [List.map_cons, List.cons.injEq] at e
      obtain ⟨rfl, e⟩ := e
      obtain ⟨zs, z1, z2, z3, z4⟩ := ih (fun x hx' => hx x (List.mem_cons_of_mem _ hx')) e
      obtain ⟨F, hF⟩ := h
      refine ⟨(x.1, q, x.2.2) :: zs, by rw [List.map_cons, z1], by rw [List.map_cons, z2], by rw [List.map_cons, z3, List.map_cons], ?_⟩
      intro z hz
      rcases List.mem_cons.1 hz with rfl | hz
      · exact (hx x (List.mem_cons_self ..)).swap hF
      · exact z4 z hz

/-- Every ensemble has orders. -/
theorem orders_exist (hv : v ≠ .sp) (hL : 0 < L) (ctor : Nat → Nat) {rs : List RunDraws} (hne : rs ≠ []) (hf : ∀ r ∈ rs, 5 * (L * L) < r.fuel) :
    ∃ qs, Orders env v L ctor rs qs := by
  obtain ⟨S0, x0, xs, e0, hR, hfin, _, _⟩ := ensemble_tables (env := env) hv hL true ctor hne hf
  refine ⟨(x0 :: xs).map (·.2.1), S0, _, e0, hR, ?_⟩
  rw [List.forall₂_map_left_iff, List.forall₂_map_right_iff, List.forall₂_same]
  exact fun x hx => ⟨_, hfin x hx⟩

/-- The ensemble drivers, with given orders. -/
theorem ensemble_tables_of (hv : v ≠ .sp) (hL : 0 < L) (pl : Bool) (ctor : Nat → Nat) {rs : List RunDraws} (hne : rs ≠ [])
    (hf : ∀ r ∈ rs, 5 * (L * L) < r.fuel) {qs : List (List Nat)} (O : Orders env v L ctor rs qs) :
    ∃ (S0 : Perc α) (x0 : Perc α × List Nat × (Nat → Nat → α)) (xs : List (Perc α × List Nat × (Nat → Nat → α))), (x0 :: xs).map (·.2.1) = qs ∧
      Perc.new env L ctor = .ok S0 ∧ Realised env v S0 rs ((x0 :: xs).map (·.1)) ∧
      (∀ x ∈ x0 :: xs, Finished env v L x.1 x.2.1 x.2.2) ∧
      runEnsemble env v pl L ctor rs =
        .ok (tableOf (L * L) fun k c => env.ar.div (sumFrom env (x0.2.2 k c) (xs.map fun x => x.2.2 k c)) (env.ar.ofNat rs.length),
          (x0 :: xs).map fun x => critRow env x.1) ∧
      runEnsembleThreads env v L ctor rs =
        .ok (tableOf (L * L) fun k c => env.ar.div (sumFrom env (x0.2.2 k c) (xs.map fun x => x.2.2 k c)) (env.ar.ofNat rs.length)) := by
  obtain ⟨S0, x0, xs, e0, hR, hfin, h1, h2⟩ := ensemble_tables (env := env) hv hL pl ctor hne hf
  obtain ⟨S0', Ss, e0', hR', hq⟩ := O
  rw [e0] at e0'
  obtain rfl := Except.ok.inj e0'
  obtain ⟨zs, z1, z2, z3, z4⟩ := swap_all hq hfin (hR.unique hR')
  cases zs with
  | nil => cases z3
  | cons z0 zs =>
    rw [List.map_cons, List.map_cons, List.cons.injEq] at z3
    have hz1 : (z0 :: zs).map (·.1) = (x0 :: xs).map (·.1) := by rw [z1]; exact (hR.unique hR').symm
    have e1 : ∀ k c, zs.map (fun x => x.2.2 k c) = xs.map fun x => x.2.2 k c := fun k c => by
      have := congrArg (List.map fun F : Nat → Nat → α => F k c) z3.2
      rwa [List.map_map, List.map_map] at this
    have e2 : ((z0 :: zs).map fun x => critRow env x.1) = (x0 :: xs).map fun x => critRow env x.1 := by
      have := congrArg (List.map (critRow env)) hz1
      rwa [List.map_map, List.map_map] at this
    refine ⟨S0, z0, zs, z2, e0, by rw [hz1]; exact hR, z4, ?_, ?_⟩
    · rw [h1, e2, z3.1]
      simp only [e1]
    · rw [h2, z3.1]
      simp only [e1]

end SqPerc
