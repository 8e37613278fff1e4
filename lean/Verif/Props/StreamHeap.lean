import Verif.Proof.StreamHeap
import Verif.Props.Streaming
import Verif.Proof.KMeans
/-!
# C108, C109: the centroids shown by the streaming algorithm are the live array of the implementation
-/
set_option linter.unusedSectionVars false

namespace Distclus

section
variable {E F R : Type} [Inhabited E] [Zero F] [One F] [Neg F] [LT F] [DecidableLT F] [BEq F] [Div F]

/-- Only calls to the implementation: no client writes in a slice. -/
def Spec.CallsOnly (ops : List (StreamHOp E F)) : Prop := ∀ op ∈ ops, op.call.isSome

/-- State `j` follows `i` by calls to the implementation. -/
def Spec.Later (space : Space E F) (i j : StreamHeap E F R) : Prop :=
  ∃ ops rs, Spec.CallsOnly ops ∧ StreamHeap.run space i ops = some (j, rs)

open Spec

theorem new_ok {h : Heap E} {conf : StreamingConf F R} {elemts : List E} {i : StreamHeap E F R}
    (hi : StreamHeap.new h conf elemts = some i) :
    SliceOk i.heap i.clust ∧ i.heap.length = h.length + 1 ∧ i.clust.arr = h.length ∧
      (∀ a, a < h.length → i.heap.getD a [] = h.getD a []) ∧
      StreamImpl.new conf elemts = some i.abs := by
  unfold StreamHeap.new at hi
  split at hi
  · cases hi
  · rename_i hc
    cases hi
    refine ⟨⟨by simp, rfl, by simp⟩, by simp, rfl, fun a ha => ?_, ?_⟩
    · simp [List.getD_eq_getElem?_getD, List.getElem?_append_left ha]
    · unfold StreamImpl.new
      rw [if_neg hc]
      simp [StreamHeap.abs, Heap.read]

theorem hrun_cons {space : Space E F} {i : StreamHeap E F R} {op : StreamHOp E F} {ops : List (StreamHOp E F)}
    {j : StreamHeap E F R} {rs : List (StreamHRes F)} (h : StreamHeap.run space i (op :: ops) = some (j, rs)) :
    ∃ i1 r rs', i.step space op = some (i1, r) ∧ StreamHeap.run space i1 ops = some (j, rs') ∧ rs = r :: rs' := by
  unfold StreamHeap.run at h
  cases hs : i.step space op with
  | none => rw [hs] at h; cases h
  | some q =>
    obtain ⟨i1, r⟩ := q
    rw [hs] at h
    dsimp only at h
    cases hr : StreamHeap.run space i1 ops with
    | none => rw [hr] at h; cases h
    | some q =>
      obtain ⟨i2, rs'⟩ := q
      rw [hr] at h
      cases h
      exact ⟨i1, r, rs', rfl, hr, rfl⟩

theorem hrun_of_cons {space : Space E F} {i i1 : StreamHeap E F R} {op : StreamHOp E F}
    {ops : List (StreamHOp E F)} {j : StreamHeap E F R} {r : StreamHRes F} {rs : List (StreamHRes F)}
    (hs : i.step space op = some (i1, r)) (h : StreamHeap.run space i1 ops = some (j, rs)) :
    StreamHeap.run space i (op :: ops) = some (j, r :: rs) := by
  unfold StreamHeap.run
  rw [hs]
  dsimp only
  rw [h]

theorem step_evolves {space : Space E F} {i i1 : StreamHeap E F R} {op : StreamHOp E F} {r : StreamHRes F}
    (hs : SliceOk i.heap i.clust) (hc : op.call.isSome) (h : i.step space op = some (i1, r)) :
    Evolves i.heap i.clust i1.heap i1.clust := by
  obtain ⟨o, ho⟩ := Option.isSome_iff_exists.1 hc
  exact (step_heap hs space ho).2 _ h

theorem run_ok {space : Space E F} (ops : List (StreamHOp E F)) : ∀ {i j : StreamHeap E F R} {rs},
    SliceOk i.heap i.clust → CallsOnly ops → StreamHeap.run space i ops = some (j, rs) →
    SliceOk j.heap j.clust ∧ i.heap.length ≤ j.heap.length ∧
      ∀ a, a < i.heap.length → a ≠ i.clust.arr → j.heap.getD a [] = i.heap.getD a [] := by
  induction ops with
  | nil => intro i j rs hs _ h; cases h; exact ⟨hs, Nat.le_refl _, fun _ _ _ => rfl⟩
  | cons op ops ih =>
    intro i j rs hs hc h
    obtain ⟨i1, r, rs', h1, h2, _⟩ := hrun_cons h
    have he := step_evolves hs (hc op List.mem_cons_self) h1
    obtain ⟨k1, k2, k3⟩ := ih he.ok (fun o ho => hc o (List.mem_cons_of_mem _ ho)) h2
    refine ⟨k1, Nat.le_trans he.mono k2, fun a ha hne => ?_⟩
    rw [k3 a (Nat.lt_of_lt_of_le ha he.mono) ?_, he.others a ha hne]
    rcases he.place with ⟨p, _⟩ | ⟨p, _⟩
    · rw [p]; exact hne
    · omega

/-- C108 (values). Whatever the runtime does with the arrays, the calls return the values of the model without
slices — read when the call returns — and panic exactly when it does. -/
theorem C108_values (space : Space E F) (ops : List (StreamHOp E F)) : ∀ (os : List (StreamOp E F))
    (i : StreamHeap E F R), SliceOk i.heap i.clust → ops.map StreamHOp.call = os.map some →
    (StreamHeap.run space i ops).map (fun r => r.1.abs) = (i.abs.run space os).map (fun r => r.1) ∧
    ∀ op o, op.call = some o → ∀ j rs, StreamHeap.run space i (ops ++ [op]) = some (j, rs) →
      ∃ pre r vs, rs = pre ++ [r] ∧ i.abs.run space (os ++ [o]) = some (j.abs, vs ++ [r.abs j.heap]) := by
  induction ops with
  | nil =>
    intro os i hs hos
    cases os with
    | cons o os => cases hos
    | nil =>
      refine ⟨rfl, fun op o ho j rs h => ?_⟩
      obtain ⟨i1, r, rs', h1, h2, h3⟩ := hrun_cons h
      cases h2
      have hv := (step_heap hs space ho).1
      rw [h1] at hv
      refine ⟨[], r, [], h3, ?_⟩
      simp only [List.nil_append]
      unfold StreamImpl.run
      rw [← hv]
      rfl
  | cons op ops ih =>
    intro os i hs hos
    cases os with
    | nil => cases hos
    | cons o os =>
      rw [List.map_cons, List.map_cons] at hos
      injection hos with h1 h2
      obtain ⟨hv, he⟩ := step_heap hs space h1
      have hrun : i.abs.run space (o :: os) = match i.abs.step space o with
          | none => none
          | some (impl, r) => match StreamImpl.run space impl os with
            | none => none
            | some (impl, rs) => some (impl, r :: rs) := rfl
      constructor
      · rw [hrun]
        unfold StreamHeap.run
        rw [← hv]
        cases hst : i.step space op with
        | none => rfl
        | some q =>
          obtain ⟨i1, r⟩ := q
          have := (ih os i1 (he _ hst).ok h2).1
          dsimp only [Option.map] at this ⊢
          cases ha : StreamHeap.run space i1 ops with
          | none =>
            rw [ha] at this
            cases hb : i1.abs.run space os with
            | none => rfl
            | some q => rw [hb] at this; cases this
          | some q =>
            rw [ha] at this
            cases hb : i1.abs.run space os with
            | none => rw [hb] at this; cases this
            | some q' => rw [hb] at this; exact this
      · intro op' o' ho' j rs h
        rw [List.cons_append] at h
        obtain ⟨i1, r, rs', k1, k2, k3⟩ := hrun_cons h
        obtain ⟨pre, r', vs, m1, m2⟩ := (ih os i1 (he _ k1).ok h2).2 op' o' ho' j rs' k2
        rw [k1] at hv
        refine ⟨r :: pre, r', r.abs i1.heap :: vs, by rw [k3, m1]; rfl, ?_⟩
        rw [List.cons_append]
        unfold StreamImpl.run
        rw [← hv]
        dsimp only [Option.map]
        rw [m2]
        rfl

/-- C108 (the live view). A clustering `v` returned by `Iterate` in state `i` is the slice of the implementation:
after any further calls it shows the first `v.len` centres the implementation had at some moment between — all
along, the current ones, until the array of the centres is replaced, the last ones before that afterwards. -/
theorem C108_view {space : Space E F} {v : Slice} (ops : List (StreamHOp E F)) :
    ∀ {i j : StreamHeap E F R} {rs}, SliceOk i.heap i.clust → v.arr = i.clust.arr → v.off = 0 →
    v.len ≤ i.clust.len → CallsOnly ops → StreamHeap.run space i ops = some (j, rs) →
    (v.arr = j.clust.arr ∧ j.heap.read v = j.abs.clust.take v.len) ∨
    (v.arr ≠ j.clust.arr ∧ ∃ a op b m rs', ops = a ++ op :: b ∧ StreamHeap.run space i a = some (m, rs') ∧
      v.arr = m.clust.arr ∧ j.heap.read v = m.abs.clust.take v.len) := by
  have hread : ∀ (h : Heap E) (s : Slice), s.off = 0 → v.arr = s.arr → v.off = 0 → v.len ≤ s.len →
      h.read v = (h.read s).take v.len := by
    intro h s h1 h2 h3 h4
    rw [Heap.read, Heap.read, h1, h2, h3, List.drop_zero, List.take_take, Nat.min_eq_left h4]
  induction ops with
  | nil => intro i j rs hs h1 h2 h3 _ h; cases h; exact .inl ⟨h1, hread _ _ hs.off h1 h2 h3⟩
  | cons op ops ih =>
    intro i j rs hs h1 h2 h3 hc h
    obtain ⟨i1, r, rs', k1, k2, _⟩ := hrun_cons h
    have hcr : CallsOnly ops := fun o ho => hc o (List.mem_cons_of_mem _ ho)
    have he := step_evolves hs (hc op List.mem_cons_self) k1
    rcases he.place with ⟨p1, p2⟩ | ⟨p1, p2⟩
    · rcases ih he.ok (h1.trans p1.symm) h2 (Nat.le_trans h3 p2) hcr k2 with g | ⟨g0, a, op', b, m, rs2, g1, g2, g3, g4⟩
      · exact .inl g
      · exact .inr ⟨g0, op :: a, op', b, m, _, by rw [g1]; rfl, hrun_of_cons k1 g2, g3, g4⟩
    · right
      have hlt := hs.alloc
      have hne : i.clust.arr ≠ i1.clust.arr := by omega
      have hmono := he.mono
      obtain ⟨q1, q2, q3⟩ := run_ok ops he.ok hcr k2
      have hfix : ∀ (ops : List (StreamHOp E F)) {s t : StreamHeap E F R} {rs}, SliceOk s.heap s.clust →
          CallsOnly ops → v.arr < s.heap.length → v.arr ≠ s.clust.arr →
          StreamHeap.run space s ops = some (t, rs) → v.arr ≠ t.clust.arr := by
        intro ops
        induction ops with
        | nil => intro s t rs _ _ _ hn hr; cases hr; exact hn
        | cons o ops ih2 =>
          intro s t rs hso hco hl hn hr
          obtain ⟨s1, _, _, w1, w2, _⟩ := hrun_cons hr
          have hev := step_evolves hso (hco o List.mem_cons_self) w1
          refine ih2 hev.ok (fun o ho => hco o (List.mem_cons_of_mem _ ho)) (Nat.lt_of_lt_of_le hl hev.mono) ?_ w2
          rcases hev.place with ⟨x1, _⟩ | ⟨x1, _⟩
          · rw [x1]; exact hn
          · omega
      refine ⟨hfix ops he.ok hcr (by omega) (by rw [h1]; exact hne) k2, [], op, ops, i, [], rfl, rfl, h1, ?_⟩
      have : j.heap.getD v.arr [] = i.heap.getD v.arr [] := by
        rw [h1, q3 _ (by omega) hne, p2]
      rw [← show i.heap.read v = i.abs.clust.take v.len from hread _ _ hs.off h1 h2 h3, Heap.read, Heap.read, this]

/-- C108 (what `Iterate` returns is such a view). -/
theorem C108_iterate {space : Space E F} {i j : StreamHeap E F R} {t m : F} {x : Nat} {v : Slice}
    (hs : SliceOk i.heap i.clust) (h : i.step space (.iterate t x) = some (j, .iterate (some v) m)) :
    SliceOk j.heap j.clust ∧ v = j.clust := by
  have he := step_evolves hs rfl h
  refine ⟨he.ok, ?_⟩
  unfold StreamHeap.step at h
  dsimp only at h
  cases hi : i.iterate space t x with
  | none => rw [hi] at h; cases h
  | some r =>
    have := ((iterate_heap hs space t x).2 r hi).2
    rw [hi] at h
    obtain ⟨a, b, c⟩ := r
    cases h
    rcases this with h | h
    · cases h
    · injection h

/-- C108 (what `Init` returns never changes). -/
theorem C108_init {space : Space E F} {i j k : StreamHeap E F R} {x : Nat} {v : Slice}
    {ops : List (StreamHOp E F)} {rs} (hs : SliceOk i.heap i.clust)
    (h : i.step space (.init x) = some (j, .init (some v))) (hc : CallsOnly ops)
    (hr : StreamHeap.run space j ops = some (k, rs)) : k.heap.read v = j.heap.read v := by
  have he := step_evolves hs rfl h
  have hi : i.init x = (j, some v) := by
    unfold StreamHeap.step at h
    dsimp only at h
    injection h with h
    injection h with h1 h2
    injection h2 with h2
    rw [← h1, ← h2]
  obtain ⟨_, _, _, b⟩ := init_heap hs x
  rw [hi] at b
  obtain ⟨_, b2, b3⟩ := b v rfl
  rw [Heap.read, Heap.read, (run_ok ops he.ok hc hr).2.2 v.arr b2 b3]

/-- C108 (the arrays of the caller). No call writes in an array that existed before the algorithm was made. -/
theorem C108_foreign {space : Space E F} {h : Heap E} {conf : StreamingConf F R} {elemts : List E}
    {i j : StreamHeap E F R} {ops : List (StreamHOp E F)} {rs} (hi : StreamHeap.new h conf elemts = some i)
    (hc : CallsOnly ops) (hr : StreamHeap.run space i ops = some (j, rs)) (s : Slice) (hs : s.arr < h.length) :
    j.heap.read s = h.read s := by
  obtain ⟨h1, h2, h3, h4, _⟩ := new_ok hi
  have := (run_ok ops h1 hc hr).2.2 s.arr (by omega) (by omega)
  rw [Heap.read, Heap.read, this, h4 _ hs]

/-- C108 (writing in the result). A client that writes in the live view sets a centre of the algorithm. -/
theorem C108_client_write {space : Space E F} {i j : StreamHeap E F R} {v : Slice} {k : Nat} {e : E} {r}
    (hs : SliceOk i.heap i.clust) (h1 : v.arr = i.clust.arr) (h2 : v.off = 0) (h3 : v.len ≤ i.clust.len)
    (h : i.step space (.clientWrite v k e) = some (j, r)) :
    j.abs = { i.abs with clust := i.abs.clust.set k e } := by
  unfold StreamHeap.step at h
  dsimp only at h
  split at h
  · rename_i hk
    cases h
    have := (write_evolves hs k e).2 (Nat.lt_of_lt_of_le hk h3)
    rw [hs.off] at this
    unfold StreamHeap.abs
    dsimp only
    rw [h1, h2, this]
  · cases h

/-- C108: in a heap with the caller's array, one element then a second one; the clustering returned by the first
`Iterate` before and after the second one. -/
def exStreamLive : Option (List Int × List Int × List Int) :=
  (StreamHeap.new ([[7]] : Heap Int) exStreamConf [10, 12]).bind fun i =>
    (StreamHeap.run exSpace i [.init 3, .iterate 5 3]).bind fun r =>
      (StreamHeap.run exSpace r.1 [.push 20, .iterate 5 3]).map fun r' =>
        (r.1.heap.read r.1.clust, r'.1.heap.read r.1.clust, r'.1.heap.read ⟨0, 0, 1⟩)

/-- C108 (claim examined: "a clustering returned by `Iterate`, hence by `Centroids()`, keeps its values"): false,
the next iteration changes it. -/
theorem C108_stable_false : exStreamLive = some ([11], [14], [7]) := by decide +kernel

theorem hrun_append {space : Space E F} (a : List (StreamHOp E F)) : ∀ {b : List (StreamHOp E F)}
    {i m j : StreamHeap E F R} {rs rs'}, StreamHeap.run space i a = some (m, rs) →
    StreamHeap.run space m b = some (j, rs') → StreamHeap.run space i (a ++ b) = some (j, rs ++ rs') := by
  induction a with
  | nil => intro b i m j rs rs' h1 h2; cases h1; exact h2
  | cons op a ih =>
    intro b i m j rs rs' h1 h2
    obtain ⟨i1, r, rs1, k1, k2, k3⟩ := hrun_cons h1
    rw [k3]
    exact hrun_of_cons k1 (ih k2 h2)

/-- C108 (together). Whatever happened before, a clustering `v` returned by `Iterate` shows, after any further
calls, the first `v.len` centres that the implementation had at a moment `m` not before that `Iterate`; as long as
`v` shares the array of the implementation, it shows the current ones. -/
theorem C108_live {space : Space E F} {h : Heap E} {conf : StreamingConf F R} {elemts : List E}
    {i i1 i2 j : StreamHeap E F R} {ops ops' : List (StreamHOp E F)} {rs rs'} {t md : F} {x : Nat} {v : Slice}
    (hi : StreamHeap.new h conf elemts = some i) (hc : CallsOnly ops)
    (hr : StreamHeap.run space i ops = some (i1, rs))
    (hit : i1.step space (.iterate t x) = some (i2, .iterate (some v) md)) (hc' : CallsOnly ops')
    (hr' : StreamHeap.run space i2 ops' = some (j, rs')) :
    i2.heap.read v = i2.abs.clust ∧
    (v.arr = j.clust.arr → j.heap.read v = j.abs.clust.take v.len) ∧
    ∃ m, Later space i2 m ∧ Later space m j ∧ j.heap.read v = m.abs.clust.take v.len := by
  have h1 := (run_ok ops (new_ok hi).1 hc hr).1
  obtain ⟨h2, rfl⟩ := C108_iterate h1 hit
  refine ⟨rfl, ?_⟩
  rcases C108_view ops' h2 rfl h2.off (Nat.le_refl _) hc' hr' with ⟨g1, g2⟩ | ⟨g0, a, op, b, m, rs2, g1, g2, g3, g4⟩
  · exact ⟨fun _ => g2, j, ⟨ops', rs', hc', hr'⟩, ⟨[], [], List.forall_mem_nil _, rfl⟩, g2⟩
  · refine ⟨fun h => absurd h g0, m, ⟨a, rs2, fun o ho => hc' o (by rw [g1]; exact List.mem_append_left _ ho), g2⟩, ?_, g4⟩
    have hsplit : ∀ (a : List (StreamHOp E F)) {b : List (StreamHOp E F)} {i m j : StreamHeap E F R} {rs rs'},
        StreamHeap.run space i a = some (m, rs) → StreamHeap.run space i (a ++ b) = some (j, rs') →
        ∃ rs'', StreamHeap.run space m b = some (j, rs'') := by
      intro a
      induction a with
      | nil => intro b i m j rs rs' q1 q2; cases q1; exact ⟨_, q2⟩
      | cons o a ih =>
        intro b i m j rs rs' q1 q2
        obtain ⟨i1, r, rs1, k1, k2, _⟩ := hrun_cons q1
        obtain ⟨i1', r', rs1', k1', k2', _⟩ := hrun_cons q2
        rw [k1] at k1'
        cases k1'
        exact ih k2 k2'
    rw [g1] at hr'
    obtain ⟨rs3, h3⟩ := hsplit a g2 hr'
    exact ⟨op :: b, rs3, fun o ho => hc' o (by rw [g1]; exact List.mem_append_right _ ho), h3⟩

theorem allSome_range {A : Type} (n : Nat) (f : Nat → Option A) (g : Nat → A)
    (h : ∀ j, j < n → f j = some (g j)) :
    allSome ((List.range n).map f) = some ((List.range n).map g) := by
  rw [← allSome_map_some ((List.range n).map g), List.map_map]
  congr 1
  exact List.map_congr_left fun j hj => h j (List.mem_range.1 hj)

/-- C109 (no write in between). If nobody writes while `Predict` runs it is `Assign` on the centroids. -/
theorem C109_quiet (space : Space E F) (s : Slice) (h : Heap E) (hs : (h.read s).length = s.len) (e : E) :
    predictLive space s (List.replicate s.len h) h e = assign space (h.read s) e := by
  have : allSome ((List.range s.len).map fun j => ((List.replicate s.len h)[j]?).bind fun h => (h.read s)[j]?) =
      some (h.read s) := by
    rw [allSome_range s.len _ (fun j => ((h.read s)[j]?).getD default)]
    · congr 1
      apply List.ext_getElem?
      intro j
      rw [List.getElem?_map]
      by_cases hj : j < s.len
      · rw [List.getElem?_range hj]
        have : j < (h.read s).length := by omega
        simp [List.getElem?_eq_getElem this]
      · rw [List.getElem?_eq_none (by simp; omega), List.getElem?_eq_none (by omega)]; rfl
    · intro j hj
      have h1 : j < (h.read s).length := by omega
      simp [hj, List.getElem?_eq_getElem h1]
  unfold predictLive
  rw [this]
  rfl

/-- `c` is the centre of index `j` in a state that follows `i`. -/
def Spec.CentreSince (space : Space E F) (i : StreamHeap E F R) (j : Nat) (c : E) : Prop :=
  ∃ m, Later space i m ∧ m.abs.clust[j]? = some c

theorem view_reads {space : Space E F} {i m : StreamHeap E F R} (hs : SliceOk i.heap i.clust)
    (hm : Later space i m) {j : Nat} (hj : j < i.clust.len) :
    ∃ c, (m.heap.read i.clust)[j]? = some c ∧ CentreSince space i j c := by
  obtain ⟨ops, rs, hc, hr⟩ := hm
  have hlen : ∀ m', Later space i m' → i.clust.len ≤ m'.abs.clust.length := by
    rintro m' ⟨ops, rs, hc, hr⟩
    clear hj
    revert hs
    generalize hL : i.clust.len = L
    intro hs
    have : ∀ (ops : List (StreamHOp E F)) {s t : StreamHeap E F R} {rs}, SliceOk s.heap s.clust →
        CallsOnly ops → StreamHeap.run space s ops = some (t, rs) → s.clust.len ≤ t.clust.len := by
      intro ops
      induction ops with
      | nil => intro s t rs _ _ h; cases h; exact Nat.le_refl _
      | cons o ops ih =>
        intro s t rs hs hc h
        obtain ⟨s1, _, _, w1, w2, _⟩ := hrun_cons h
        have hev := step_evolves hs (hc o List.mem_cons_self) w1
        exact Nat.le_trans hev.grows (ih hev.ok (fun o ho => hc o (List.mem_cons_of_mem _ ho)) w2)
    have h1 := this ops hs hc hr
    have h2 := (run_ok ops hs hc hr).1.read_length
    show L ≤ (m'.heap.read m'.clust).length
    omega
  have key : ∀ m', Later space i m' → m.heap.read i.clust = m'.abs.clust.take i.clust.len →
      ∃ c, (m.heap.read i.clust)[j]? = some c ∧ CentreSince space i j c := by
    intro m' hm' he
    have hl := hlen m' hm'
    have hjl : j < m'.abs.clust.length := by omega
    refine ⟨m'.abs.clust[j], ?_, m', hm', List.getElem?_eq_getElem hjl⟩
    rw [he, List.getElem?_take_of_lt hj, List.getElem?_eq_getElem hjl]
  rcases C108_view ops hs rfl hs.off (Nat.le_refl _) hc hr with ⟨g1, g2⟩ | ⟨g0, a, op, b, m', rs2, g1, g2, g3, g4⟩
  · exact key m ⟨ops, rs, hc, hr⟩ g2
  · exact key m' ⟨a, rs2, fun o ho => hc o (by rw [g1]; exact List.mem_append_left _ ho), g2⟩ g4

theorem nearestLoop_lt {E F : Type} [Zero F] [LT F] [DecidableLT F] (space : Space E F) (e : E) :
    ∀ (c : List E) (k : Nat) (l : Int) (m : F), l < k + c.length → (nearestLoop space e c k l m).1 < k + c.length := by
  intro c
  induction c with
  | nil => intro k l m h; exact h
  | cons x c ih =>
    intro k l m h
    unfold nearestLoop
    dsimp only
    rw [List.length_cons] at h ⊢
    push_cast at h ⊢
    split
    · have := ih (k + 1) k (space.dist e x) (by push_cast; omega)
      push_cast at this; omega
    · have := ih (k + 1) l m (by push_cast; omega)
      push_cast at this; omega

/-- C109 (what `Predict` returns while the algorithm iterates). `Centroids()` gave the centres of state `i`; each
read happens in some later state.  The call does not panic; the label and the distance are those of the nearest
element of a list `cs` whose `j`-th element was the `j`-th centre at some moment since; the centroid returned was
the centre of that label at some moment since. -/
theorem C109_mixed {space : Space E F} {i : StreamHeap E F R} (hs : SliceOk i.heap i.clust)
    {states : List (StreamHeap E F R)} {final : StreamHeap E F R} (hn : states.length = i.clust.len)
    (hst : ∀ m ∈ states, Later space i m) (hf : Later space i final) (e : E) :
    ∃ (cs : List E) (o : Option E) (label : Int) (d : F), cs.length = i.clust.len ∧
      (∀ (j : Nat) c, cs[j]? = some c → CentreSince space i j c) ∧ nearest space cs e = (label, d) ∧
      predictLive space i.clust (states.map (·.heap)) final.heap e = some (o, label, d) ∧
      (label < 0 → o = none) ∧ (0 ≤ label → ∃ c, o = some c ∧ CentreSince space i label.toNat c) := by
  have hread : ∀ j, j < i.clust.len → ∃ c, (((states.map (·.heap))[j]?).bind fun h => (h.read i.clust)[j]?) = some c ∧
      CentreSince space i j c := by
    intro j hj
    have hj' : j < states.length := by omega
    obtain ⟨c, h1, h2⟩ := view_reads hs (hst _ (List.getElem_mem hj')) hj
    refine ⟨c, ?_, h2⟩
    rw [List.getElem?_map, List.getElem?_eq_getElem hj']
    exact h1
  classical
  let g : Nat → E := fun j => if hj : j < i.clust.len then (hread j hj).choose else default
  have hg : ∀ j, j < i.clust.len → (((states.map (·.heap))[j]?).bind fun h => (h.read i.clust)[j]?) = some (g j) ∧
      CentreSince space i j (g j) := by
    intro j hj
    simp only [g, dif_pos hj]
    exact (hread j hj).choose_spec
  have hall := allSome_range i.clust.len _ g fun j hj => (hg j hj).1
  have hlen : ((List.range i.clust.len).map g).length = i.clust.len := by simp
  refine ⟨(List.range i.clust.len).map g, ?_⟩
  have hp : (nearest space ((List.range i.clust.len).map g) e).1 < i.clust.len := by
    have := nearestLoop_lt space e ((List.range i.clust.len).map g) 0 (-1) (-1) (by omega)
    rw [hlen] at this
    simpa [nearest] using this
  unfold predictLive
  rw [hall]
  dsimp only
  generalize nearest space ((List.range i.clust.len).map g) e = r at hp ⊢
  obtain ⟨label, d⟩ := r
  dsimp only at hp ⊢
  have hcs : ∀ (j : Nat) c, ((List.range i.clust.len).map g)[j]? = some c → CentreSince space i j c := by
    intro j c hc
    have hj : j < i.clust.len := by
      have := (List.getElem?_eq_some_iff.1 hc).1
      omega
    rw [List.getElem?_map, List.getElem?_range hj] at hc
    cases hc
    exact (hg j hj).2
  by_cases hl : label ≥ 0
  · obtain ⟨c, h1, h2⟩ := view_reads hs hf (j := label.toNat) (by omega)
    refine ⟨some c, label, d, hlen, hcs, rfl, ?_, fun h => by omega, fun _ => ⟨c, rfl, h2⟩⟩
    have hix : idx? (final.heap.read i.clust) label = some c := by
      unfold idx?
      rw [if_neg (by omega)]
      exact h1
    rw [if_pos hl, hix]
  · exact ⟨none, label, d, hlen, hcs, rfl, by rw [if_neg hl], fun _ => rfl, fun h => absurd h hl⟩

/-- C109: the result of `Predict(10)` on centroid `11` when an iteration ends between the search of the nearest
centroid and the reading of `(*c)[label]`, and the distance of the centroid returned. -/
def exPredictLive : Option (Option (Option Int × Int × Int) × Int) :=
  (StreamHeap.new ([] : Heap Int) exStreamConf [10, 12]).bind fun i =>
    (StreamHeap.run exSpace i [.init 3, .iterate 5 3, .push 20]).bind fun r =>
      (StreamHeap.run exSpace r.1 [.iterate 5 3]).map fun r' =>
        (predictLive exSpace r.1.clust [r.1.heap] r'.1.heap 10, exSpace.dist 10 14)

/-- C109 (claim examined: "the distance returned by `Predict` is the distance to the centroid returned"): false
while the streaming algorithm runs. -/
theorem C109_distance_false : exPredictLive = some (some (some 14, 0, 1), 4) := by decide +kernel

end

/-- A state of the history of the example: one centre, room for another one, an element waiting. -/
def exLiveState : StreamHeap Int Int Unit := ⟨[[11, 0]], 2, ⟨0, 0, 1⟩, [2], [20], exStreamConf, 1⟩

/-- The hypotheses of C109 hold for a state with a centre, which the next iteration changes. -/
example : SliceOk exLiveState.heap exLiveState.clust ∧ exLiveState.clust.len = 1 ∧
    ∃ j, Spec.Later exSpace exLiveState j ∧ j.abs.clust = [14] := by
  refine ⟨⟨by decide, rfl, by decide⟩, rfl, (exLiveState.step exSpace (.iterate 5 0)).get (by decide) |>.1, ?_, by decide⟩
  exact ⟨[.iterate 5 0], [.iterate (some ⟨0, 0, 1⟩) 9], by
    intro o ho
    rw [List.mem_singleton] at ho
    rw [ho]; rfl, rfl⟩

end Distclus
