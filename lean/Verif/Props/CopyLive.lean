import Verif.Model.CopyLive
import Verif.Props.Copy
/-!
# C118: copying an algorithm which works
-/
namespace Distclus
variable {E : Type}

namespace Spec

/-- The elements stored before the read of position `i`. -/
def storedBefore : List (CopyOp E) → Nat → List E
  | [], _ => []
  | .store e _ :: os, i => e :: storedBefore os i
  | .read :: _, 0 => []
  | .read :: os, i + 1 => storedBefore os i

/-- All the elements stored. -/
def storedDuring : List (CopyOp E) → List E
  | [] => []
  | .store e _ :: os => e :: storedDuring os
  | .read :: os => storedDuring os

/-- The number of reads. -/
def readsIn : List (CopyOp E) → Nat
  | [] => 0
  | .store _ _ :: os => readsIn os
  | .read :: os => readsIn os + 1

end Spec
open Spec

theorem storedBefore_prefix : ∀ (ops : List (CopyOp E)) (i : Nat), storedBefore ops i <+: storedDuring ops
  | [], _ => List.prefix_refl _
  | .store e _ :: os, i => List.prefix_cons_inj e |>.2 (storedBefore_prefix os i)
  | .read :: _, 0 => List.nil_prefix
  | .read :: os, i + 1 => storedBefore_prefix os i

variable [Inhabited E]

theorem copying_cells : ∀ (ops : List (CopyOp E)) (s : Copying E) (p : DataBuffer E),
    HeapRep 0 s.heap s.orig p.data p.strategy → Retained 0 s.heap s.orig s.src p.data p.strategy →
    s.out.length ≤ s.src.len → ∃ l, (s.run ops).out = s.out ++ l ∧
      l.length = min (s.src.len - s.out.length) (readsIn ops) ∧
      ∀ i, i < l.length → l[i]? = ((storedBefore ops i).foldl DataBuffer.store p).data[s.out.length + i]? := by
  intro ops
  induction ops with
  | nil => intro s p _ _ _; exact ⟨[], (List.append_nil _).symm, by simp [readsIn], fun i hi => absurd hi (Nat.not_lt_zero _)⟩
  | cons o os ih =>
    intro s p hr ht hl
    cases o with
    | store e x =>
      obtain ⟨k1, _, _, k4⟩ := store_rep hr e x
      obtain ⟨l, h1, h2, h3⟩ := ih (s.step (.store e x)) (p.store e) k1 (k4 _ ht) hl
      exact ⟨l, h1, h2, h3⟩
    | read =>
      by_cases hlt : s.out.length < s.src.len
      · have hs : s.step .read =
            { s with out := s.out ++ [(s.heap.getD s.src.arr []).getD (s.src.off + s.out.length) default] } := by
          simp only [Copying.step, if_pos hlt]
        have hv : p.data[s.out.length]? =
            some ((s.heap.getD s.src.arr []).getD (s.src.off + s.out.length) default) := by
          have h1 := congrArg (fun l => l[s.out.length]?) ht.reads
          simp only [List.getElem?_take, if_pos hlt] at h1
          have h2 : s.out.length < p.data.length := Nat.lt_of_lt_of_le hlt ht.le
          rw [List.getElem?_eq_getElem h2] at h1
          rw [ht.off, Nat.zero_add, List.getD_eq_getElem?_getD (l := s.heap.getD s.src.arr []), h1, Option.getD_some,
            List.getElem?_eq_getElem h2]
        generalize (s.heap.getD s.src.arr []).getD (s.src.off + s.out.length) default = v at hs hv
        obtain ⟨l, h1, h2, h3⟩ := ih (s.step .read) p (by rw [hs]; exact hr) (by rw [hs]; exact ht)
          (by rw [hs]; simp only [List.length_append, List.length_singleton]; exact hlt)
        rw [hs] at h2 h3
        simp only [List.length_append, List.length_singleton] at h2 h3
        refine ⟨v :: l, ?_, ?_, ?_⟩
        · change ((s.step .read).run os).out = _
          rw [h1, hs]; simp
        · rw [List.length_cons, h2, readsIn]; omega
        · intro i hi
          cases i with
          | zero => simp only [storedBefore, List.foldl_nil, Nat.add_zero]; exact hv.symm
          | succ i =>
            have := h3 i (by simpa using hi)
            simp only [List.getElem?_cons_succ, storedBefore]
            rw [this]; congr 1; omega
      · have hs : s.step .read = s := by simp only [Copying.step, if_neg hlt]
        obtain ⟨l, h1, h2, h3⟩ := ih s p hr ht hl
        have hz : l.length = 0 := by omega
        refine ⟨l, ?_, by rw [hz]; omega, fun i hi => by omega⟩
        change ((s.step .read).run os).out = _
        rw [hs, h1]

/-- A buffer of the library with what it stores, on a heap. -/
def Holds (h : Heap E) (b : HeapBuffer) (p : DataBuffer E) : Prop := HeapRep 0 h b p.data p.strategy

/-- **C118 (positions).** `Copy` at any time, while the original stores any elements: each position of the copy
holds what the original had at this position when it was read. -/
theorem C118_positions {h : Heap E} {b : HeapBuffer} {p : DataBuffer E} (hr : Holds h b p) (ops : List (CopyOp E)) :
    ((Copying.start h b).run ops).out.length = min p.data.length (readsIn ops) ∧
    ∀ i, i < ((Copying.start h b).run ops).out.length →
      ((Copying.start h b).run ops).out[i]? = ((storedBefore ops i).foldl DataBuffer.store p).data[i]? := by
  obtain ⟨l, h1, h2, h3⟩ := copying_cells ops (Copying.start h b) p hr
    ⟨hr.own, hr.alloc, hr.off, Nat.le_of_eq hr.len, by
      change (h.getD b.data.arr []).take b.data.len = p.data.take b.data.len
      rw [hr.len, hr.content, List.take_length], fun _ _ _ => rfl⟩ (Nat.zero_le _)
  have h0 : (Copying.start h b).out = [] := rfl
  have h0' : (Copying.start h b).src.len = p.data.length := hr.len
  rw [h0, List.nil_append] at h1
  rw [h0, h0', List.length_nil, Nat.sub_zero] at h2
  rw [h1]
  refine ⟨h2, fun i hi => ?_⟩
  rw [h3 i hi, h0, List.length_nil, Nat.zero_add]

omit [Inhabited E] in
theorem infinite_fold : ∀ (l : List E) (p : DataBuffer E), p.strategy = .infinite →
    (l.foldl DataBuffer.store p).data = p.data ++ l := by
  intro l
  induction l with
  | nil => intro p _; simp
  | cons e l ih =>
    intro p hp
    have h1 : (p.store e).strategy = .infinite := by simp [DataBuffer.store, hp, Strategy.push]
    have h2 : (p.store e).data = p.data ++ [e] := by simp [DataBuffer.store, hp, Strategy.push]
    rw [List.foldl_cons, ih _ h1, h2]; simp

omit [Inhabited E] in
/-- Where a store of a frame goes. -/
theorem fixed_store {size pos : Nat} {p : DataBuffer E} (e : E) (hp : p.strategy = .fixed size pos) (h0 : 0 < size)
    (hle : pos ≤ size) (hd : p.data.length ≤ size) (hpos : pos ≤ p.data.length)
    (hf : p.data.length < size → pos = p.data.length) :
    (p.store e).strategy = .fixed size (pos % size + 1) ∧ (p.store e).data.length ≤ size ∧
    pos % size + 1 ≤ (p.store e).data.length ∧
    ((p.store e).data.length < size → pos % size + 1 = (p.store e).data.length) ∧
    p.data.length ≤ (p.store e).data.length ∧
    ∀ i, (p.store e).data[i]? = if i = pos % size then some e else p.data[i]? := by
  have hmod : (if pos = size then 0 else pos) = pos % size := by
    split
    · rename_i h; rw [h, Nat.mod_self]
    · rw [Nat.mod_eq_of_lt (by omega)]
  have hm := Nat.mod_lt pos h0
  have hmp : pos % size ≤ pos := Nat.mod_le _ _
  unfold DataBuffer.store
  rw [hp]
  simp only [Strategy.push, hmod]
  split
  · rename_i hlt
    refine ⟨trivial, by simpa using hd, by simp only [List.length_set]; omega, ?_, by simp, ?_⟩
    · intro h
      simp only [List.length_set] at h ⊢
      have := hf h
      rw [this, Nat.mod_eq_of_lt h] at hlt
      omega
    · intro i
      rw [List.getElem?_set]
      by_cases hi : pos % size = i
      · subst hi; simp [hlt]
      · rw [if_neg hi, if_neg (Ne.symm hi)]
  · rename_i hlt
    have hps : pos % size = p.data.length := by omega
    refine ⟨trivial, by simp only [List.length_append, List.length_singleton]; omega,
      by simp only [List.length_append, List.length_singleton]; omega, ?_, by simp, ?_⟩
    · intro _; simp only [List.length_append, List.length_singleton]; omega
    · intro i
      by_cases hi : i = pos % size
      · rw [if_pos hi, hi, hps]; simp
      · rw [if_neg hi, List.getElem?_append]
        split
        · rfl
        · rw [List.getElem?_eq_none (by simp only [List.length_singleton]; omega),
            List.getElem?_eq_none (by omega)]

omit [Inhabited E] in
/-- Where the elements of a frame come from. -/
theorem fixed_fold {size : Nat} (h0 : 0 < size) : ∀ (l : List E) (pos : Nat) (p : DataBuffer E),
    p.strategy = .fixed size pos → pos ≤ size → p.data.length ≤ size → pos ≤ p.data.length →
    (p.data.length < size → pos = p.data.length) → ∀ i e, (l.foldl DataBuffer.store p).data[i]? = some e →
    p.data[i]? = some e ∨ ∃ k, l[k]? = some e ∧ (pos + k) % size = i := by
  intro l
  induction l with
  | nil => intro pos p _ _ _ _ _ i e h; exact .inl h
  | cons a l ih =>
    intro pos p hp hle hd hpos hf i e h
    obtain ⟨s1, s2, s3, s4, _, s5⟩ := fixed_store a hp h0 hle hd hpos hf
    rcases ih _ _ s1 (Nat.succ_le_of_lt (Nat.mod_lt _ h0)) s2 s3 s4 i e h with h1 | ⟨k, h1, h2⟩
    · rw [s5] at h1
      split at h1
      · rename_i hi
        exact .inr ⟨0, by simpa using h1, by rw [Nat.add_zero]; exact hi.symm⟩
      · exact .inl h1
    · refine .inr ⟨k + 1, by simpa using h1, ?_⟩
      rw [← h2, show pos + (k + 1) = pos + (k + 1) from rfl, Nat.add_mod pos (k + 1), Nat.add_assoc, Nat.add_comm 1 k,
        Nat.add_mod (pos % size) (k + 1), Nat.mod_mod]

omit [Inhabited E] in
theorem fixed_room {size : Nat} : ∀ (l : List E) (p : DataBuffer E),
    p.strategy = .fixed size p.data.length → p.data.length + l.length ≤ size →
    (l.foldl DataBuffer.store p).data = p.data ++ l := by
  intro l
  induction l with
  | nil => intro p _ _; simp
  | cons a l ih =>
    intro p hp hle
    have hlt : p.data.length < size := by simp only [List.length_cons] at hle; omega
    have h1 : p.store a = { p with data := p.data ++ [a], strategy := .fixed size (p.data.length + 1) } := by
      unfold DataBuffer.store
      rw [hp]
      simp only [Strategy.push, if_neg (Nat.ne_of_lt hlt), Nat.lt_irrefl, if_false]
    rw [List.foldl_cons, ih]
    · rw [h1]; simp
    · rw [h1]; simp
    · rw [h1]; simp only [List.length_append, List.length_cons, List.length_nil] at hle ⊢; omega

omit [Inhabited E] in
theorem list_ext_of {l l' : List E} (hl : l.length = l'.length)
    (h : ∀ i, i < l.length → l[i]? = l'[i]?) : l = l' := by
  refine List.ext_getElem? fun i => ?_
  rcases Nat.lt_or_ge i l.length with hi | hi
  · exact h i hi
  · rw [List.getElem?_eq_none hi, List.getElem?_eq_none (by omega)]

/-- **C118 (unbounded).** Without a frame the copy has exactly the data the original stored when `Copy` was called,
whatever the original stores meanwhile. -/
theorem C118_unbounded {h : Heap E} {b : HeapBuffer} {p : DataBuffer E} (hr : Holds h b p)
    (hi : p.strategy = .infinite) (ops : List (CopyOp E)) (hd : p.data.length ≤ readsIn ops) :
    ((Copying.start h b).run ops).out = p.data := by
  obtain ⟨h1, h2⟩ := C118_positions hr ops
  refine list_ext_of (by omega) fun i hlt => ?_
  rw [h2 i hlt, infinite_fold _ _ hi, List.getElem?_append_left (by omega)]

/-- **C118 (room).** With a frame the copy has exactly the data stored when `Copy` was called if the elements
stored meanwhile fit in the room left; in particular if none is stored. -/
theorem C118_room {h : Heap E} {b : HeapBuffer} {p : DataBuffer E} (hr : Holds h b p) {size pos : Nat}
    (hf : p.strategy = .fixed size pos) (ops : List (CopyOp E)) (hd : p.data.length ≤ readsIn ops)
    (hroom : p.data.length + (storedDuring ops).length ≤ size) :
    ((Copying.start h b).run ops).out = p.data := by
  obtain ⟨h1, h2⟩ := C118_positions hr ops
  obtain ⟨c1, c2, c3, c4, c5⟩ := hr.cap size pos hf
  refine list_ext_of (by omega) fun i hlt => ?_
  have hpre := storedBefore_prefix ops i
  rw [h2 i hlt]
  rcases Nat.lt_or_ge p.data.length size with hs | hs
  · rw [fixed_room _ _ (by rw [hf, c5 hs]) (by have := hpre.length_le; omega),
      List.getElem?_append_left (by omega)]
  · have : storedDuring ops = [] := List.eq_nil_of_length_eq_zero (by omega)
    rw [this] at hpre
    rw [List.prefix_nil.1 hpre]; rfl

/-- **C118 (nothing foreign, nothing twice).** Everything in the copy was stored before `Copy` or during it; and if
these elements are all different, none is copied twice. -/
theorem C118_elements {h : Heap E} {b : HeapBuffer} {p : DataBuffer E} (hr : Holds h b p) (ops : List (CopyOp E)) :
    (∀ e ∈ ((Copying.start h b).run ops).out, e ∈ p.data ++ storedDuring ops) ∧
    ((p.data ++ storedDuring ops).Nodup → ((Copying.start h b).run ops).out.Nodup) := by
  obtain ⟨h1, h2⟩ := C118_positions hr ops
  -- every position of the copy has a place of its own
  have key : ∃ cell : Nat → Nat, ∀ i e, i < ((Copying.start h b).run ops).out.length →
      ((Copying.start h b).run ops).out[i]? = some e →
      p.data[i]? = some e ∨ ∃ k, (storedDuring ops)[k]? = some e ∧ cell k = i := by
    cases hs : p.strategy with
    | infinite =>
      refine ⟨fun _ => 0, fun i e hi he => .inl ?_⟩
      rw [h2 i hi, infinite_fold _ _ hs, List.getElem?_append_left (by omega)] at he
      exact he
    | fixed size pos =>
      obtain ⟨c1, c2, c3, c4, c5⟩ := hr.cap size pos hs
      have hle : p.data.length ≤ size := by rw [← c1]; exact take_len_le _ _ hr.content
      refine ⟨fun k => (pos + k) % size, fun i e hi he => ?_⟩
      rw [h2 i hi] at he
      rcases fixed_fold c4 _ pos p hs c2 hle c3 c5 i e he with h3 | ⟨k, h3, h4⟩
      · exact .inl h3
      · obtain ⟨t, ht⟩ := storedBefore_prefix ops i
        have hk : k < (storedBefore ops i).length := by
          by_contra hk
          rw [List.getElem?_eq_none (by omega)] at h3; cases h3
        exact .inr ⟨k, by rw [← ht, List.getElem?_append_left hk]; exact h3, h4⟩
  obtain ⟨cell, key⟩ := key
  constructor
  · intro e he
    obtain ⟨i, hi, rfl⟩ := List.getElem_of_mem he
    rcases key i _ hi (List.getElem?_eq_getElem hi) with h3 | ⟨k, h3, _⟩
    · exact List.mem_append_left _ (List.mem_of_getElem? h3)
    · exact List.mem_append_right _ (List.mem_of_getElem? h3)
  · intro hn
    obtain ⟨n1, n2, n3⟩ := List.nodup_append.1 hn
    rw [List.nodup_iff_injective_get]
    rintro ⟨i, hi⟩ ⟨j, hj⟩ hij
    have hij : ((Copying.start h b).run ops).out[i] = ((Copying.start h b).run ops).out[j] := hij
    have ei := key i _ hi (List.getElem?_eq_getElem hi)
    have ej := key j _ hj (List.getElem?_eq_getElem hj)
    rw [← hij] at ej
    refine Fin.ext ?_
    change i = j
    rcases ei with h3 | ⟨k, h3, h4⟩ <;> rcases ej with h5 | ⟨m, h5, h6⟩
    · obtain ⟨q1, e1⟩ := List.getElem?_eq_some_iff.1 h3
      obtain ⟨q2, e2⟩ := List.getElem?_eq_some_iff.1 h5
      exact (List.Nodup.getElem_inj_iff n1).1 (e1.trans e2.symm)
    · exact absurd rfl (n3 _ (List.mem_of_getElem? h3) _ (List.mem_of_getElem? h5))
    · exact absurd rfl (n3 _ (List.mem_of_getElem? h5) _ (List.mem_of_getElem? h3))
    · obtain ⟨q1, e1⟩ := List.getElem?_eq_some_iff.1 h3
      obtain ⟨q2, e2⟩ := List.getElem?_eq_some_iff.1 h5
      rw [← h4, ← h6, (List.Nodup.getElem_inj_iff n2).1 (e1.trans e2.symm)]

/-- The buffers of the library are of this kind: any history of stores of a new buffer. -/
theorem holds_new (h : Heap E) (s : Slice) (size : Int) (hs : s.off + s.len ≤ (h.getD s.arr []).length)
    (ops : List (HeapOp E)) :
    Holds (heapRun h.length (newHeapBuffer h s size).1 (newHeapBuffer h s size).2 ops).1
      (heapRun h.length (newHeapBuffer h s size).1 (newHeapBuffer h s size).2 ops).2
      ((storesOf ops).foldl DataBuffer.store (newDataBuffer (h.read s) size)) := by
  obtain ⟨h1, h2, _⟩ := newHeapBuffer_rep h s size hs
  exact (heapRun_rep ops h2 h1).1.weaken

/-- **C118 (claim examined).** With a frame, the copy of an algorithm which works need not be a state of the
original at any time: the frame of size 2 held 1, 2 when `Copy` was called; 3 and 4 are stored between the two reads;
the copy holds 1 and 4, though the original held 1, 2, then 3, 2, then 3, 4: an element is copied while two more recent
ones are missing. -/
theorem C118_torn : ∃ (h : Heap Nat) (b : HeapBuffer) (p : DataBuffer Nat) (ops : List (CopyOp Nat)), Holds h b p ∧
    readsIn ops = p.data.length ∧ p.data = [1, 2] ∧ storedDuring ops = [3, 4] ∧
    (((Copying.start h b).run ops).result 2).data = [1, 4] ∧
    ∀ n, (((storedDuring ops).take n).foldl DataBuffer.store p).data ≠ [1, 4] := by
  refine ⟨_, _, _, [.read, .store 3 0, .store 4 0, .read],
    holds_new [[1, 2]] ⟨0, 0, 2⟩ 2 (by decide) [], by decide, by decide, by decide, by decide, ?_⟩
  intro n
  have : ∀ n, n ≤ 2 → (([3, 4].take n).foldl DataBuffer.store (newDataBuffer [1, 2] 2)).data ≠ [1, 4] := by
    intro n hn
    have : n = 0 ∨ n = 1 ∨ n = 2 := by omega
    rcases this with rfl | rfl | rfl <;> decide
  rcases Nat.le_total n 2 with hn | hn
  · exact this n hn
  · have e : (storedDuring [CopyOp.read, .store 3 0, .store 4 0, .read]).take n = [3, 4].take 2 :=
      List.take_of_length_le (by simpa [storedDuring] using hn)
    change (((storedDuring [CopyOp.read, .store 3 0, .store 4 0, .read]).take n).foldl DataBuffer.store
      (newDataBuffer [1, 2] 2)).data ≠ [1, 4]
    rw [e]
    exact this 2 (Nat.le_refl _)

/-- The hypotheses of `C118_room` and `C118_unbounded` are met while elements are stored. -/
example : ∃ (h : Heap Nat) (b : HeapBuffer) (p : DataBuffer Nat), Holds h b p ∧ p.strategy = .fixed 4 2 ∧
    p.data = [1, 2] ∧ p.data.length + (storedDuring [CopyOp.read, .store 3 0, .store 4 0, .read]).length ≤ 4 ∧
    ((Copying.start h b).run [.read, .store 3 0, .store 4 0, .read]).out = [1, 2] :=
  ⟨_, _, _, holds_new [[1, 2]] ⟨0, 0, 2⟩ 4 (by decide) [], by decide, by decide, by decide, by decide⟩

example : ∃ (h : Heap Nat) (b : HeapBuffer) (p : DataBuffer Nat), Holds h b p ∧ p.strategy = .infinite ∧
    ((Copying.start h b).run [.read, .store 3 0, .store 4 0, .read]).out = [1, 2] ∧
    ((Copying.start h b).run [.read, .store 3 0, .store 4 0, .read]).orig.data.len = 4 :=
  ⟨_, _, _, holds_new [[1, 2]] ⟨0, 0, 2⟩ 0 (by decide) [], by decide, by decide, by decide⟩

end Distclus
