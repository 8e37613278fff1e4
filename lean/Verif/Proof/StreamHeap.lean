import Verif.Model.StreamHeap
import Verif.Proof.BufferHeap
/-!
# The streaming algorithm on slices: simulation and what happens to the arrays
-/
set_option linter.unusedSectionVars false

namespace Distclus

section
variable {E F R : Type}

/-- The slice of the centres is a prefix of an array that exists. -/
structure SliceOk (h : Heap E) (s : Slice) : Prop where
  alloc : s.arr < h.length
  off : s.off = 0
  fits : s.len ≤ (h.getD s.arr []).length

/-- What a step does to the arrays, `s` being the slice of the centres before and `s'` after. -/
structure Evolves (h : Heap E) (s : Slice) (h' : Heap E) (s' : Slice) : Prop where
  ok : SliceOk h' s'
  mono : h.length ≤ h'.length
  others : ∀ a, a < h.length → a ≠ s.arr → h'.getD a [] = h.getD a []
  grows : s.len ≤ s'.len
  place : (s'.arr = s.arr ∧ s.len ≤ s'.len) ∨
    (h.length ≤ s'.arr ∧ h'.getD s.arr [] = h.getD s.arr [])

theorem Evolves.refl {h : Heap E} {s : Slice} (hs : SliceOk h s) : Evolves h s h s :=
  ⟨hs, Nat.le_refl _, fun _ _ _ => rfl, Nat.le_refl _, .inl ⟨rfl, Nat.le_refl _⟩⟩

theorem SliceOk.read_length {h : Heap E} {s : Slice} (hs : SliceOk h s) : (h.read s).length = s.len := by
  rw [Heap.read, hs.off, List.drop_zero, List.length_take]; exact Nat.min_eq_left hs.fits

variable [Inhabited E]

theorem append_evolves {h : Heap E} {s : Slice} (hs : SliceOk h s) (e : E) (extra : Nat) :
    Evolves h s (h.append s e extra).1 (h.append s e extra).2 ∧
      (h.append s e extra).1.read (h.append s e extra).2 = h.read s ++ [e] := by
  have hl := hs.read_length
  have hc : (h.getD s.arr []).take (h.read s).length = h.read s := by
    rw [hl, Heap.read, hs.off, List.drop_zero]
  obtain ⟨h1, h2, h3, h4, h5, h6, h7, h8, h9⟩ := append_spec h s e extra (h.read s) hs.alloc hs.off hl.symm hc
  have hfit : (h.append s e extra).2.len ≤ ((h.append s e extra).1.getD (h.append s e extra).2.arr []).length := by
    have := congrArg List.length h5
    rw [List.length_take, List.length_append] at this
    simp only [List.length_singleton] at this
    rw [h4]; omega
  refine ⟨⟨⟨h2, h3, hfit⟩, h6, h7, by rw [h4, hl]; exact Nat.le_succ _, ?_⟩, by rw [Heap.read, h3, List.drop_zero, h4, h5]⟩
  by_cases hlt : s.len < (h.getD s.arr []).length
  · left; exact ⟨(h9 hlt).1, by rw [h4, hl]; omega⟩
  · right
    unfold Heap.append
    rw [hs.off, Nat.zero_add, if_neg hlt]
    exact ⟨Nat.le_refl _, getD_makeCopy_old _ _ _ _ hs.alloc⟩

omit [Inhabited E] in
theorem write_evolves {h : Heap E} {s : Slice} (hs : SliceOk h s) (k : Nat) (v : E) :
    Evolves h s (h.write s.arr (s.off + k) v) s ∧
      (k < s.len → (h.write s.arr (s.off + k) v).read s = (h.read s).set k v) := by
  refine ⟨⟨⟨by rw [length_write]; exact hs.alloc, hs.off, ?_⟩, by rw [length_write]; exact Nat.le_refl _,
    fun a _ hne => getD_write_ne _ _ _ _ _ (Ne.symm hne), Nat.le_refl _, .inl ⟨rfl, Nat.le_refl _⟩⟩, fun hk => ?_⟩
  · rw [getD_write_eq, List.length_set]; exact hs.fits
  · rw [Heap.read, Heap.read, getD_write_eq, hs.off, List.drop_zero, List.drop_zero, Nat.zero_add, List.take_set]

theorem makeCopy_ok {h : Heap E} {s : Slice} (hs : SliceOk h s) (l : List E) (cap : Nat) :
    SliceOk (h.makeCopy l cap).1 s ∧ (h.makeCopy l cap).1.read s = h.read s := by
  have hl : (h.makeCopy l cap).1.length = h.length + 1 := by simp [Heap.makeCopy]
  have ho := fun a ha => getD_makeCopy_old h l cap a ha
  refine ⟨⟨by rw [hl]; exact Nat.lt_succ_of_lt hs.alloc, hs.off, by rw [ho _ hs.alloc]; exact hs.fits⟩, ?_⟩
  rw [Heap.read, Heap.read, ho _ hs.alloc]

/-- A fresh array first, then a step. -/
theorem Evolves.after_copy {h h' : Heap E} {s s' : Slice} (hs : SliceOk h s) {l : List E} {cap : Nat}
    (he : Evolves (h.makeCopy l cap).1 s h' s') : Evolves h s h' s' := by
  have hl : (h.makeCopy l cap).1.length = h.length + 1 := by simp [Heap.makeCopy]
  have ho := fun a ha => getD_makeCopy_old h l cap a ha
  refine ⟨he.ok, by have := he.mono; omega, fun a ha hne => ?_, he.grows, ?_⟩
  · rw [← ho a ha]; exact he.others a (by omega) hne
  · rcases he.place with h1 | ⟨h1, h2⟩
    · exact .inl h1
    · exact .inr ⟨by omega, by rw [h2, ho _ hs.alloc]⟩

/-- The centres as values. -/
def StreamHeap.abs (i : StreamHeap E F R) : StreamImpl E F R :=
  { maxDistance := i.maxDistance, clust := i.heap.read i.clust, cards := i.cards, c := i.c, conf := i.conf,
    count := i.count }

variable [Zero F] [LT F] [DecidableLT F]

omit [Inhabited E] in
theorem updateMaxDistance_heap (i : StreamHeap E F R) (d : F) :
    (i.updateMaxDistance d).heap = i.heap ∧ (i.updateMaxDistance d).clust = i.clust ∧
      (i.updateMaxDistance d).abs = i.abs.updateMaxDistance d := by
  unfold StreamHeap.updateMaxDistance StreamImpl.updateMaxDistance
  by_cases h : i.maxDistance < d
  · rw [if_pos h, if_pos (show i.abs.maxDistance < d from h)]; exact ⟨rfl, rfl, rfl⟩
  · rw [if_neg h, if_neg (show ¬ i.abs.maxDistance < d from h)]; exact ⟨rfl, rfl, rfl⟩

theorem addOutlier_heap {i : StreamHeap E F R} (hs : SliceOk i.heap i.clust) (e : E) (x : Nat) :
    Evolves i.heap i.clust (i.addOutlier e x).heap (i.addOutlier e x).clust ∧
      (i.addOutlier e x).abs = i.abs.addOutlier e := by
  obtain ⟨h1, h2⟩ := append_evolves hs e x
  refine ⟨h1, ?_⟩
  unfold StreamHeap.addOutlier StreamHeap.abs StreamImpl.addOutlier
  simp only [h2]

theorem addCenter_heap {i : StreamHeap E F R} (hs : SliceOk i.heap i.clust) (e : E) (d : F) (x : Nat) :
    Evolves i.heap i.clust (i.addCenter e d x).heap (i.addCenter e d x).clust ∧
      (i.addCenter e d x).abs = i.abs.addCenter e d := by
  obtain ⟨h1, h2⟩ := append_evolves hs e x
  unfold StreamHeap.addCenter
  obtain ⟨g1, g2, g3⟩ := updateMaxDistance_heap (R := R)
    { i with heap := (i.heap.append i.clust e x).1, clust := (i.heap.append i.clust e x).2,
             cards := i.cards ++ [1] } d
  dsimp only
  rw [g1, g2, g3]
  refine ⟨h1, ?_⟩
  unfold StreamHeap.abs StreamImpl.addCenter
  simp only [h2]

omit [Inhabited E] in
theorem idx?_some_lt {A : Type} {l : List A} {k : Int} {a : A} (h : idx? l k = some a) : k.toNat < l.length := by
  unfold idx? at h
  split at h
  · cases h
  · exact (List.getElem?_eq_some_iff.1 h).1

theorem updateCenter_heap {i : StreamHeap E F R} (hs : SliceOk i.heap i.clust) (k : Int) (e : E) (d : F)
    (space : Space E F) :
    (i.updateCenter k e d space).map StreamHeap.abs = i.abs.updateCenter k e d space ∧
      ∀ j, i.updateCenter k e d space = some j → Evolves i.heap i.clust j.heap j.clust := by
  unfold StreamHeap.updateCenter StreamImpl.updateCenter
  have hab : i.abs.clust = i.heap.read i.clust := rfl
  have hab2 : i.abs.cards = i.cards := rfl
  rw [hab, hab2]
  cases h1 : idx? (i.heap.read i.clust) k with
  | none => exact ⟨rfl, fun j hj => nomatch hj⟩
  | some center =>
    cases h2 : idx? i.cards k with
    | none => exact ⟨rfl, fun j hj => nomatch hj⟩
    | some card =>
      obtain ⟨w1, w2⟩ := write_evolves hs k.toNat (space.combine center card e 1)
      have hk := idx?_some_lt h1
      rw [hs.read_length] at hk
      obtain ⟨g1, g2, g3⟩ := updateMaxDistance_heap (R := R)
        { i with heap := i.heap.write i.clust.arr (i.clust.off + k.toNat) (space.combine center card e 1),
                 cards := i.cards.set k.toNat (card + 1) } d
      constructor
      · dsimp only [Option.map]
        rw [g3]
        unfold StreamHeap.abs
        simp only [w2 hk]
      · intro j hj
        cases hj
        rw [g1, g2]
        exact w1

theorem init_heap {i : StreamHeap E F R} (hs : SliceOk i.heap i.clust) (x : Nat) :
    Evolves i.heap i.clust (i.init x).1.heap (i.init x).1.clust ∧
      (i.init x).1.abs = i.abs.init.1 ∧
      (i.init x).2.map (i.init x).1.heap.read = i.abs.init.2 ∧
      ∀ s, (i.init x).2 = some s → i.heap.length ≤ s.arr ∧ s.arr < (i.init x).1.heap.length ∧
        s.arr ≠ (i.init x).1.clust.arr := by
  unfold StreamHeap.init StreamImpl.init
  have hab : i.abs.c = i.c := rfl
  rw [hab]
  cases hc : i.c with
  | nil => exact ⟨.refl hs, rfl, rfl, fun s h => nomatch h⟩
  | cons e q =>
    obtain ⟨k1, k2⟩ := makeCopy_ok hs [e] 1
    have hl : (i.heap.makeCopy [e] 1).1.length = i.heap.length + 1 := by simp [Heap.makeCopy]
    obtain ⟨a1, a2⟩ := addCenter_heap (i := { i with heap := (i.heap.makeCopy [e] 1).1, c := q }) k1 e 0 x
    have hslt : (i.heap.makeCopy [e] 1).2.arr = i.heap.length := rfl
    have hne : i.heap.length ≠ i.clust.arr := Nat.ne_of_gt hs.alloc
    have hnew := a1.others i.heap.length (by dsimp only; omega) hne
    refine ⟨a1.after_copy hs, ?_, ?_, ?_⟩
    · dsimp only
      rw [a2]
      unfold StreamHeap.abs
      simp only [k2]
    · dsimp only [Option.map]
      rw [Heap.read, hslt, hnew]
      dsimp only
      rw [getD_makeCopy_new]
      simp [Heap.makeCopy]
    · intro s hs'
      cases hs'
      refine ⟨Nat.le_of_eq hslt.symm, ?_, ?_⟩
      · have := a1.mono; dsimp only at this ⊢; omega
      · dsimp only
        rw [hslt]
        rcases a1.place with ⟨p1, _⟩ | ⟨p1, _⟩
        · rw [p1]; exact hne
        · dsimp only at p1; omega

variable [One F] [Neg F] [BEq F] [Div F]

theorem getRel_heap (i : StreamHeap E F R) (d : F) :
    (i.getRelativeDistance d).1.heap = i.heap ∧ (i.getRelativeDistance d).1.clust = i.clust ∧
      (i.getRelativeDistance d).1.abs = (i.abs.getRelativeDistance d).1 ∧
      (i.getRelativeDistance d).2 = (i.abs.getRelativeDistance d).2 := by
  unfold StreamHeap.getRelativeDistance StreamImpl.getRelativeDistance
  have hm : i.abs.maxDistance = i.maxDistance := rfl
  cases h : (i.maxDistance == 0) <;> simp [StreamHeap.abs, h]

theorem process_heap {i : StreamHeap E F R} (hs : SliceOk i.heap i.clust) (space : Space E F) (t : F) (x : Nat)
    (e : E) :
    (i.process space t x e).map StreamHeap.abs = i.abs.process space t e ∧
      ∀ j, i.process space t x e = some j → Evolves i.heap i.clust j.heap j.clust := by
  unfold StreamHeap.process StreamImpl.process
  have hab : i.abs.clust = i.heap.read i.clust := rfl
  rw [hab]
  cases ha : assign space (i.heap.read i.clust) e with
  | none => exact ⟨rfl, fun j hj => nomatch hj⟩
  | some r =>
    obtain ⟨o, label, d⟩ := r
    obtain ⟨g1, g2, g3, g4⟩ := getRel_heap i d
    dsimp only
    generalize hG : i.getRelativeDistance d = G at g1 g2 g3 g4
    generalize hH : i.abs.getRelativeDistance d = H at g3 g4
    obtain ⟨i1, rel⟩ := G
    obtain ⟨a1, rel'⟩ := H
    dsimp only at g1 g2 g3 g4 ⊢
    subst g4 g3
    have hs1 : SliceOk i1.heap i1.clust := by rw [g1, g2]; exact hs
    rw [← g1, ← g2]
    have e1 : i1.abs.conf = i1.conf := rfl
    have e2 : i1.abs.count = i1.count := rfl
    simp only [e1, e2]
    by_cases c1 : i1.conf.outAfter ≤ i1.count ∧ i1.conf.outRatio < rel
    · rw [if_pos c1, if_pos c1]
      obtain ⟨b1, b2⟩ := addOutlier_heap hs1 e x
      refine ⟨?_, fun j hj => by cases hj; exact b1⟩
      dsimp only [Option.map]; rw [← b2]; rfl
    · rw [if_neg c1, if_neg c1]
      by_cases c2 : t < rel
      · rw [if_pos c2, if_pos c2]
        obtain ⟨b1, b2⟩ := addCenter_heap hs1 e d x
        refine ⟨?_, fun j hj => by cases hj; exact b1⟩
        dsimp only [Option.map]; rw [← b2]; rfl
      · rw [if_neg c2, if_neg c2]
        obtain ⟨b1, b2⟩ := updateCenter_heap hs1 label e d space
        rw [← b1]
        cases hu : i1.updateCenter label e d space with
        | none => exact ⟨rfl, fun j hj => nomatch hj⟩
        | some j1 =>
          have := b2 j1 hu
          exact ⟨rfl, fun j hj => by cases hj; exact this⟩

theorem iterate_heap {i : StreamHeap E F R} (hs : SliceOk i.heap i.clust) (space : Space E F) (t : F) (x : Nat) :
    (i.iterate space t x).map (fun r => (r.1.abs, r.2.1.map r.1.heap.read, r.2.2)) = i.abs.iterate space t ∧
      ∀ r, i.iterate space t x = some r → Evolves i.heap i.clust r.1.heap r.1.clust ∧
        (r.2.1 = none ∨ r.2.1 = some r.1.clust) := by
  unfold StreamHeap.iterate StreamImpl.iterate
  have hab : i.abs.c = i.c := rfl
  rw [hab]
  cases hc : i.c with
  | nil => exact ⟨rfl, fun r hr => by cases hr; exact ⟨.refl hs, .inl rfl⟩⟩
  | cons e q =>
    obtain ⟨b1, b2⟩ := process_heap (i := { i with c := q }) hs space t x e
    have hq : ({ i with c := q } : StreamHeap E F R).abs = { i.abs with c := q } := rfl
    rw [hq] at b1
    dsimp only
    rw [← b1]
    cases hp : ({ i with c := q } : StreamHeap E F R).process space t x e with
    | none => exact ⟨rfl, fun r hr => nomatch hr⟩
    | some j => exact ⟨rfl, fun r hr => by cases hr; exact ⟨b2 j hp, .inr rfl⟩⟩

/-- The call of an event, if it is one. -/
def StreamHOp.call : StreamHOp E F → Option (StreamOp E F)
  | .push e => some (.push e)
  | .init _ => some .init
  | .iterate t _ => some (.iterate t)
  | .clientWrite _ _ _ => none

/-- A result with the centres as values, in the heap `h`. -/
def StreamHRes.abs (h : Heap E) : StreamHRes F → StreamRes E F
  | .push err => .push err
  | .init s => .init (s.map h.read)
  | .iterate s m => .iterate (s.map h.read) m
  | .written => .push false

/-- One call: same result, and what happens to the arrays. -/
theorem step_heap {i : StreamHeap E F R} (hs : SliceOk i.heap i.clust) (space : Space E F)
    {op : StreamHOp E F} {o : StreamOp E F} (ho : op.call = some o) :
    (i.step space op).map (fun r => (r.1.abs, r.2.abs r.1.heap)) = i.abs.step space o ∧
      ∀ r, i.step space op = some r → Evolves i.heap i.clust r.1.heap r.1.clust := by
  cases op with
  | push e =>
    cases ho
    refine ⟨?_, fun r hr => ?_⟩
    · unfold StreamHeap.step StreamImpl.step StreamHeap.push StreamImpl.push
      have hab : i.abs.c = i.c := rfl
      have hcf : i.abs.conf = i.conf := rfl
      rw [hab, hcf]
      by_cases h : (i.c.length : Int) < i.conf.bufferSize
      · simp only [if_pos h]; rfl
      · simp only [if_neg h]; rfl
    · unfold StreamHeap.step StreamHeap.push at hr
      by_cases h : (i.c.length : Int) < i.conf.bufferSize
      · simp only [if_pos h] at hr; cases hr; exact .refl hs
      · simp only [if_neg h] at hr; cases hr; exact .refl hs
  | init x =>
    cases ho
    obtain ⟨b1, b2, b3, _⟩ := init_heap hs x
    refine ⟨?_, fun r hr => by cases hr; exact b1⟩
    show some ((i.init x).1.abs, StreamRes.init ((i.init x).2.map (i.init x).1.heap.read)) = _
    rw [b2, b3]; rfl
  | iterate t x =>
    cases ho
    obtain ⟨b1, b2⟩ := iterate_heap hs space t x
    unfold StreamHeap.step StreamImpl.step
    dsimp only
    rw [← b1]
    cases hi : i.iterate space t x with
    | none => exact ⟨rfl, fun r hr => nomatch hr⟩
    | some r => exact ⟨rfl, fun r' hr => by cases hr; exact (b2 r hi).1⟩
  | clientWrite s k v => cases ho

end
end Distclus
