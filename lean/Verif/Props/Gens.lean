import Verif.Proof.Gens
import Verif.Props.Mcmc
import Verif.Model.Copy
/-!
# C128: the random generators of a copy
-/
namespace Distclus
open Spec
variable {G E F R R' D D' : Type}

section
variable [Zero F] [One F] [Neg F] [LT F] [DecidableLT F] [Add F] [Sub F] [Mul F] [BEq F] [GoMath F] [Div F]

/-- **C128 (mcmc).** Two mcmc algorithms without a common generator, in the configurations or in the distributions, do
not influence each other: whatever the order of their calls, each one gets what it gets alone. -/
theorem C128_mcmc (rng : Rng G F) (smp smp' : E → Nat → G → E × G) (gi : Int → List E → G → D × G)
    (gi' : Int → List E → G → D' × G) (p : McmcParams D E F R) (p' : McmcParams D' E F R') {g g' : McmcGens}
    (hd : ∀ a, McmcGens.Has g a → ¬McmcGens.Has g' a) (os : List (ImplOp E ⊕ ImplOp E))
    (s s' : McmcImpl E F × List E) (h : Gens G) :
    (pairGens (mcmcStep rng smp gi p g) (mcmcStep rng smp' gi' p' g') os (some s, some s') h).1 =
      ((soloGens (mcmcStep rng smp gi p g) (lefts os) (some s) h).1,
        (soloGens (mcmcStep rng smp' gi' p' g') (rights os) (some s') h).1) :=
  pairGens_eq (mcmcStep_local rng smp gi p g) (mcmcStep_local rng smp' gi' p' g') hd os _ _ h h h (fun _ _ => rfl) fun _ _ => rfl

/-- **C128 (copy of mcmc, every iteration).** Whatever generator the new configuration has, each iteration of the copy
which returns draws from the generator of the original's configuration. -/
theorem C128_copy_draws {rng : Rng G F} {smp : E → Nat → G → E × G} {age : G → Nat} (hA : Ages rng smp age)
    (gi : Int → List E → G → D × G) (p : McmcParams D E F R) (g : McmcGens) (newConf : Nat)
    (s : McmcImpl E F × List E) (h : Gens G)
    (hs : (mcmcStep rng smp gi p (g.copy newConf) .iterate s h).1 ≠ none) :
    age (h g.conf) < age ((mcmcStep rng smp gi p (g.copy newConf) .iterate s h).2 g.conf) := by
  rcases mcmcDraw_grows hA p (g.copy newConf) s.1 s.2 h with h1 | h1
  · refine absurd ?_ hs
    show ((s.1.iterate p s.2 (mcmcDraw rng smp p (g.copy newConf) s.1 s.2 h).1).map _) = none
    rw [h1]; rfl
  · exact h1
end

/-- **C128 (copy of k-means).** The copy of a k-means algorithm, with a configuration which has another generator, and
the original do not influence each other. -/
theorem C128_kmeans_copy (ini : Int → List E → G → Option (List E) × G) (k k' frame frame' : Int)
    (step step' : List E → List E → Option (List E)) {conf newConf : Nat} (hn : newConf ≠ conf)
    (os : List (ImplOp E ⊕ ImplOp E)) (s : DataBuffer E × List E) (h : Gens G) :
    (pairGens (kmeansGenStep ini k step conf) (kmeansGenStep ini k' step' newConf) os
        (some s, some (s.1.copy frame frame', [])) h).1 =
      ((soloGens (kmeansGenStep ini k step conf) (lefts os) (some s) h).1,
        (soloGens (kmeansGenStep ini k' step' newConf) (rights os) (some (s.1.copy frame frame', [])) h).1) :=
  pairGens_eq (kmeansGenStep_local ini k step conf) (kmeansGenStep_local ini k' step' newConf) (fun _ h1 h2 => hn (h2.symm.trans h1)) os _ _ h h h
    (fun _ _ => rfl) fun _ _ => rfl

section
attribute [local instance] exQMath

/-- A generator which counts its draws. -/
def exRng : Rng Nat ℚ where
  float64 n := (if n % 2 = 0 then 3 / 4 else 1 / 8, n + 1)
  intn k n := (n % k, n + 1)

/-- The Dirac distribution, which draws nothing. -/
def exSmp : ℚ → Nat → Nat → ℚ × Nat := fun mu _ n => (mu, n)

/-- The initializer draws nothing. -/
def exGi : Int → List ℚ → Nat → Unit × Nat := fun _ _ n => ((), n)

/-- An mcmc algorithm with the generators 0 and 1, and its copy with a new configuration, whose generator is 2. -/
def exPair (os : List (ImplOp ℚ ⊕ ImplOp ℚ)) :=
  pairGens (mcmcStep exRng exSmp exGi (exMcmc [1, 1, 2]) (McmcGens.new 0 1))
    (mcmcStep exRng exSmp exGi ((exMcmc [1, 1, 2]).copy (exMcmcConf [1, 1, 2]) exQSpace) ((McmcGens.new 0 1).copy 2))
    os (some (McmcImpl.new (exMcmc [1, 1, 2]) [3, 5, 9], []),
      some ((McmcImpl.new (exMcmc [1, 1, 2]) [3, 5, 9]).copy (exMcmc [1, 1, 2]), [])) (fun _ => 0)

/-- **C128 (copy of mcmc; claim examined).** Although the new configuration has a generator of its own, a copy of an
mcmc algorithm and the original influence each other: the same calls of each, in another order, give other
centroids, here to the copy. -/
theorem C128_copy_shares :
    (exPair [.inl .init, .inr .init, .inl .iterate, .inr .iterate]).1.2.map (·.2) = some [3, 7] ∧
    (exPair [.inl .init, .inr .init, .inr .iterate, .inl .iterate]).1.2.map (·.2) = some [4, 9] := by
  decide +kernel

/-- Here to the original. -/
theorem C128_copy_disturbs :
    (exPair [.inl .init, .inr .init, .inl .iterate, .inr .iterate, .inr .iterate, .inr .iterate]).1.1.map (·.2) =
      some [3, 7] ∧
    (exPair [.inl .init, .inr .init, .inr .iterate, .inr .iterate, .inr .iterate, .inl .iterate]).1.1.map (·.2) =
      some [17 / 3] := by
  decide +kernel

/-- The hypotheses of `C128_copy_draws` hold, and the generator 0, that of the original, has been used once more by
the copy. -/
example : Ages exRng exSmp id ∧
    (exPair [.inl .init, .inr .init]).2 0 = 0 ∧ (exPair [.inl .init, .inr .init, .inr .iterate]).2 0 = 2 := by
  refine ⟨⟨fun g => Nat.lt_succ_self g, fun n g => Nat.lt_succ_self g, fun e t g => Nat.le_refl g⟩, ?_⟩
  decide +kernel

/-- Two algorithms with generators of their own. -/
example : ∀ a, McmcGens.Has (McmcGens.new 0 1) a → ¬McmcGens.Has (McmcGens.new 2 3) a := by
  rintro a (rfl | rfl | rfl) (h | h | h) <;> cases h

end

/-- The hypotheses of `C128_kmeans_copy`: the initializer takes the elements from the place which it draws. -/
example :
    let ini : Int → List Nat → Nat → Option (List Nat) × Nat := fun k data n => (some ((data.drop n).take k.toNat), n + 1)
    let step : List Nat → List Nat → Option (List Nat) := fun data c => some (c.map (· + data.length))
    ∀ os : List (ImplOp Nat ⊕ ImplOp Nat), os = [.inl .init, .inr .init, .inl .init, .inr .iterate, .inl .iterate] →
    (pairGens (kmeansGenStep ini 1 step 0) (kmeansGenStep ini 2 step 1) os
      (some (newDataBuffer [4, 6, 9] 0, []), some ((newDataBuffer [4, 6, 9] 0).copy 0 0, [])) (fun _ => 0)).1.1.map
        (·.2) = some [9] := by
  rintro ini step os rfl
  decide +kernel

end Distclus
