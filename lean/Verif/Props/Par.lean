import Verif.Spec.Par
import Verif.Proof.ParMapLabel
import Verif.Spec.Example
/-!
# C01, C02, C22 (partition part): `Par` and parallel labelling
-/

namespace Distclus

/-- **C01.** `Par(process, size, degree)` with `degree ≥ 1` launches one call per rank `0..degree-1`,
in rank order, on an even contiguous partition of `[0, size)`. -/
theorem C01_par_even_partition (size : Nat) (degree : Int) (hd : 1 ≤ degree) :
    ∃ chunks, par size degree = some chunks ∧
      chunks.map (·.rank) = List.range degree.toNat ∧
      Spec.EvenPartition size degree.toNat (chunks.map fun k => (k.start, k.stop)) := by
  have hpos : 0 < degree.toNat := by omega
  refine ⟨_, par_eq (by omega), ?_, ?_⟩
  · rw [List.map_map]; exact List.map_id _
  have hsz : degree.toNat * (size / degree.toNat) + size % degree.toNat = size :=
    Nat.div_add_mod _ _
  have hmod := Nat.mod_lt size hpos
  constructor
  · simp
  · intro p hp
    obtain ⟨k, hk, rfl⟩ := List.mem_map.1 hp
    exact par_chunk_bounds (par_eq (by omega)) k hk
  · rw [List.map_map, List.flatMap_map]
    have := flatMap_bound (size / degree.toNat) degree.toNat (size % degree.toNat) degree.toNat
    rw [bound_last hmod, hsz] at this
    exact this
  · intro p hp q hq
    obtain ⟨k, hk, rfl⟩ := List.mem_map.1 hp
    obtain ⟨k', hk', rfl⟩ := List.mem_map.1 hq
    obtain ⟨i, _, rfl⟩ := List.mem_map.1 hk
    obtain ⟨j, _, rfl⟩ := List.mem_map.1 hk'
    simp only [bound_succ]
    split <;> split <;> omega

example : par 7 3 = some [⟨0, 2, 0⟩, ⟨2, 4, 1⟩, ⟨4, 7, 2⟩] := by decide

/-- **C22** (arithmetic part). `Par` panics exactly when the degree is not positive; in particular
with a negative number of CPUs every parallel operation panics. -/
theorem C22_par_panics_iff (size : Nat) (degree : Int) : par size degree = none ↔ degree ≤ 0 := by
  constructor
  · intro h
    by_contra hd
    rw [par_eq (by omega)] at h
    cases h
  · exact par_none

section
variable {E F : Type} [Zero F] [One F] [Neg F] [LT F] [DecidableLT F]

/-- **C02.** For every degree `≥ 1` the possible results of the parallel labelling, over all
interleavings of the workers' writes, are exactly one: the result of the sequential labelling.
(`↔`: at least one schedule exists.) No law on floats or on the space is used. -/
theorem C02_parMapLabel_eq_mapLabel (space : Space E F) (c data : List E) (degree : Int)
    (hd : 1 ≤ degree) (r : List Int × List F) :
    ParMapLabel space c data degree r ↔ r = mapLabel space c data := by
  have key : ∀ chunks trace, par data.length degree = some chunks →
      Interleave (chunks.map (labelWorker space c data)) trace →
      trace.foldl PairWrite.run (List.replicate data.length 0, List.replicate data.length 0) =
        mapLabel space c data := by
    intro chunks trace hc ht
    rw [foldl_run_perm (ht.perm.trans (labelWorkers_perm space c data degree hc)) (addr_nodup _ _),
      List.foldl_append]
    have h1 := foldl_label (mapLabel space c data).1 [] (List.replicate data.length 0)
      (List.replicate data.length (0 : F)) (by simp [mapLabel])
    have h2 := foldl_dist (mapLabel space c data).2 [] (List.replicate data.length (0 : F))
      (mapLabel space c data).1 (by simp [mapLabel])
    simp only [List.length_nil, Nat.zero_add, List.nil_append] at h1 h2
    rw [h1, h2]
  constructor
  · rintro ⟨chunks, hc, trace, ht, rfl⟩
    exact key chunks trace hc ht
  · rintro rfl
    obtain ⟨trace, ht⟩ := Interleave.exists
      (((List.range degree.toNat).map fun i =>
      (⟨bound (data.length / degree.toNat) degree.toNat (data.length % degree.toNat) i,
       bound (data.length / degree.toNat) degree.toNat (data.length % degree.toNat) (i + 1), i⟩ :
         Chunk)).map (labelWorker space c data))
    exact ⟨_, par_eq (by omega), trace, ht, (key _ _ (par_eq (by omega)) ht).symm⟩

example : mapLabel exSpace [0, 10] [1, 9, 4, 5, 6] = ([0, 1, 0, 0, 1], [1, 1, 4, 5, 4]) := by decide

end

theorem flatten_pairs_perm {A B : Type} (l : List (A × B)) : ∀ n : Nat,
    (l.mapIdx fun i v => [PairWrite.fst (n + i) v.1, PairWrite.snd (n + i) v.2]).flatten.Perm
      (((l.map (·.1)).mapIdx fun j v => PairWrite.fst (A := A) (B := B) (n + j) v) ++
        ((l.map (·.2)).mapIdx fun j v => PairWrite.snd (n + j) v)) := by
  induction l with
  | nil => intro n; simp
  | cons a l ih =>
    intro n
    have := ih (n + 1)
    simp only [List.mapIdx_cons, List.flatten_cons, List.map_cons, List.cons_append, Nat.add_zero,
      List.nil_append]
    refine List.Perm.cons _ ?_
    refine List.Perm.trans ?_ List.perm_middle.symm
    refine List.Perm.cons _ ?_
    simpa only [Nat.add_assoc, Nat.add_comm 1] using this

/-- **C02/C08 (schedule independence of the reductions).** Each worker of a parallel reduction
writes its result into its own slot, so after any interleaving the shared `parts` slice is the
list of the workers' results in rank order. -/
theorem C08_parts_schedule_independent {A B : Type} (zero : A × B) (results : List (A × B))
    (r : List A × List B) :
    ParParts zero results r ↔ r = (results.map (·.1), results.map (·.2)) := by
  have key : ∀ trace, Interleave
      (results.mapIdx fun i v => [PairWrite.fst i v.1, PairWrite.snd i v.2]) trace →
      trace.foldl PairWrite.run
        (List.replicate results.length zero.1, List.replicate results.length zero.2) =
        (results.map (·.1), results.map (·.2)) := by
    intro trace ht
    have hp := flatten_pairs_perm results 0
    simp only [Nat.zero_add] at hp
    rw [foldl_run_perm (ht.perm.trans hp) (addr_nodup _ _), List.foldl_append]
    have h1 := foldl_label (results.map (·.1)) [] (List.replicate results.length zero.1)
      (List.replicate results.length zero.2) (by simp)
    have h2 := foldl_dist (results.map (·.2)) [] (List.replicate results.length zero.2)
      (results.map (·.1)) (by simp)
    simp only [List.length_nil, Nat.zero_add, List.nil_append] at h1 h2
    rw [h1, h2]
  constructor
  · rintro ⟨trace, ht, rfl⟩; exact key trace ht
  · rintro rfl
    obtain ⟨trace, ht⟩ := Interleave.exists
      (results.mapIdx fun i v => [PairWrite.fst (A := A) (B := B) i v.1, PairWrite.snd i v.2])
    exact ⟨trace, ht, (key trace ht).symm⟩

end Distclus
