import Verif.Model.Clust
import Verif.Proof.Par
import Mathlib.Data.List.Flatten
import Mathlib.Data.List.Nodup

namespace Distclus

theorem slice_mapIdx {α β : Type} (l : List α) (f : Nat → α → β) (a b : Nat) :
    (slice l a b).mapIdx (fun j v => f (a + j) v) = slice (l.mapIdx f) a b := by
  apply List.ext_getElem?
  intro i
  simp only [slice, List.getElem?_mapIdx, List.getElem?_take, List.getElem?_drop]
  split <;> simp

theorem slice_map {α β : Type} (l : List α) (f : α → β) (a b : Nat) :
    slice (l.map f) a b = (slice l a b).map f := by
  simp [slice, List.map_drop, List.map_take]

section
variable {A B : Type}

/-- address written -/
def PairWrite.addr : PairWrite A B → Bool × Nat
  | .fst i _ => (true, i)
  | .snd i _ => (false, i)

theorem PairWrite.run_comm (m : List A × List B) (x y : PairWrite A B)
    (h : x = y ∨ x.addr ≠ y.addr) : (y.run (x.run m)) = (x.run (y.run m)) := by
  rcases h with rfl | h
  · rfl
  · cases x <;> cases y <;>
      simp only [PairWrite.addr, ne_eq, Prod.mk.injEq, true_and, reduceCtorEq] at h <;>
      simp only [PairWrite.run]
    · rw [List.set_comm _ _ h]
    · rw [List.set_comm _ _ h]

theorem nodup_map_inj {α β : Type} {f : α → β} {l : List α}
    (h : (l.map f).Nodup) {x y : α} (hx : x ∈ l) (hy : y ∈ l) (he : f x = f y) : x = y := by
  obtain ⟨i, hi, rfl⟩ := List.mem_iff_getElem.1 hx
  obtain ⟨j, hj, rfl⟩ := List.mem_iff_getElem.1 hy
  have := (List.Nodup.getElem_inj_iff h (i := i) (j := j) (hi := by simpa using hi)
    (hj := by simpa using hj)).1 (by simpa using he)
  subst this; rfl

theorem foldl_run_perm {l₁ l₂ : List (PairWrite A B)} (hp : l₁.Perm l₂)
    (hn : (l₂.map PairWrite.addr).Nodup) (m : List A × List B) :
    l₁.foldl PairWrite.run m = l₂.foldl PairWrite.run m := by
  have hn1 : (l₁.map PairWrite.addr).Nodup := (hp.map _).nodup_iff.2 hn
  refine hp.foldl_eq' ?_ m
  intro x hx y hy z
  apply PairWrite.run_comm
  by_cases h : x = y
  · exact Or.inl h
  · exact Or.inr fun he => h (nodup_map_inj hn1 hx hy he)

theorem foldl_label (l : List A) : ∀ (pre : List A) (m : List A) (d : List B),
    m.length = l.length →
    (l.mapIdx fun j v => PairWrite.fst (pre.length + j) v).foldl PairWrite.run (pre ++ m, d) =
      (pre ++ l, d) := by
  induction l with
  | nil => intro pre m d h; simp at h; simp [h]
  | cons a l ih =>
    intro pre m d h
    cases m with
    | nil => simp at h
    | cons b m =>
      simp only [List.mapIdx_cons, List.foldl_cons, PairWrite.run, Nat.add_zero]
      rw [List.set_append_right _ _ (le_refl _)]
      simp only [Nat.sub_self, List.set_cons_zero]
      have := ih (pre ++ [a]) m d (by simpa using h)
      simp only [List.length_append, List.length_cons, List.length_nil, List.append_assoc,
        List.cons_append, List.nil_append] at this
      rw [← this]
      congr 2
      funext j v
      congr 1
      omega

theorem foldl_dist (l : List B) : ∀ (pre : List B) (m : List B) (d : List A),
    m.length = l.length →
    (l.mapIdx fun j v => PairWrite.snd (pre.length + j) v).foldl PairWrite.run (d, pre ++ m) =
      (d, pre ++ l) := by
  induction l with
  | nil => intro pre m d h; simp at h; simp [h]
  | cons a l ih =>
    intro pre m d h
    cases m with
    | nil => simp at h
    | cons b m =>
      simp only [List.mapIdx_cons, List.foldl_cons, PairWrite.run, Nat.add_zero]
      rw [List.set_append_right _ _ (le_refl _)]
      simp only [Nat.sub_self, List.set_cons_zero]
      have := ih (pre ++ [a]) m d (by simpa using h)
      simp only [List.length_append, List.length_cons, List.length_nil, List.append_assoc,
        List.cons_append, List.nil_append] at this
      rw [← this]
      congr 2
      funext j v
      congr 1
      omega

theorem addr_nodup (ls : List A) (ds : List B) :
    ((ls.mapIdx (fun j v => PairWrite.fst (A := A) (B := B) j v) ++
      ds.mapIdx (fun j v => PairWrite.snd j v)).map PairWrite.addr).Nodup := by
  have h1 : (ls.mapIdx (fun j v => PairWrite.fst (A := A) (B := B) j v)).map PairWrite.addr =
      (List.range ls.length).map fun j => (true, j) := by
    apply List.ext_getElem? ; intro i
    simp only [List.getElem?_map, List.getElem?_mapIdx]
    by_cases h : i < ls.length
    · simp [h, PairWrite.addr]
    · simp [h]
  have h2 : (ds.mapIdx (fun j v => PairWrite.snd (A := A) (B := B) j v)).map PairWrite.addr =
      (List.range ds.length).map fun j => (false, j) := by
    apply List.ext_getElem? ; intro i
    simp only [List.getElem?_map, List.getElem?_mapIdx]
    by_cases h : i < ds.length
    · simp [h, PairWrite.addr]
    · simp [h]
  rw [List.map_append, h1, h2, List.nodup_append]
  refine ⟨?_, ?_, ?_⟩
  · exact List.Nodup.map (fun a b h => by simpa using h) List.nodup_range
  · exact List.Nodup.map (fun a b h => by simpa using h) List.nodup_range
  · intro a ha b hb
    simp only [List.mem_map] at ha hb
    obtain ⟨_, _, rfl⟩ := ha
    obtain ⟨_, _, rfl⟩ := hb
    simp

end

section
variable {E F : Type} [Zero F] [One F] [Neg F] [LT F] [DecidableLT F]

theorem labelWorkers_perm (space : Space E F) (c data : List E) (degree : Int)
    {chunks : List Chunk} (h : par data.length degree = some chunks) :
    (chunks.map (labelWorker space c data)).flatten.Perm
      ((mapLabel space c data).1.mapIdx (fun j v => PairWrite.fst j v) ++
       (mapLabel space c data).2.mapIdx (fun j v => PairWrite.snd j v)) := by
  have hA : (chunks.flatMap fun k => slice ((mapLabel space c data).1.mapIdx
      (fun j v => PairWrite.fst (A := Int) (B := F) j v)) k.start k.stop) =
      (mapLabel space c data).1.mapIdx (fun j v => PairWrite.fst j v) :=
    par_slices (degree := degree) _ (by simpa [mapLabel] using h)
  have hB : (chunks.flatMap fun k => slice ((mapLabel space c data).2.mapIdx
      (fun j v => PairWrite.snd (A := Int) (B := F) j v)) k.start k.stop) =
      (mapLabel space c data).2.mapIdx (fun j v => PairWrite.snd j v) :=
    par_slices (degree := degree) _ (by simpa [mapLabel] using h)
  rw [← hA, ← hB]
  rw [← List.flatMap_def]
  have : (fun k => labelWorker space c data k) = fun k =>
      slice ((mapLabel space c data).1.mapIdx
        (fun j v => PairWrite.fst (A := Int) (B := F) j v)) k.start k.stop ++
      slice ((mapLabel space c data).2.mapIdx
        (fun j v => PairWrite.snd (A := Int) (B := F) j v)) k.start k.stop := by
    funext k
    rw [← slice_mapIdx, ← slice_mapIdx]
    simp only [labelWorker, mapLabel, slice_map]
  show (chunks.flatMap fun k => labelWorker space c data k).Perm _
  rw [this]
  exact (List.flatMap_append_perm _ _ _).symm

end
end Distclus
