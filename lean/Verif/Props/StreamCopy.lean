import Verif.Spec.StreamCopy
import Verif.Props.StreamHeap
/-!
# C153: copying a streaming algorithm which works
-/
set_option linter.unusedSectionVars false

namespace Distclus
open Spec

section
variable {E F R : Type} [Inhabited E] [Zero F] [One F] [Neg F] [LT F] [DecidableLT F] [BEq F] [Div F]

theorem callsDuring_append (a b : List (StreamCopyOp E F)) :
    callsDuring (a ++ b) = callsDuring a ++ callsDuring b := by
  induction a with
  | nil => rfl
  | cons o a ih => cases o <;> simp [callsDuring, ih]

theorem sendsDuring_append (a b : List (StreamCopyOp E F)) :
    sendsDuring (a ++ b) = sendsDuring a + sendsDuring b := by
  induction a with
  | nil => simp [sendsDuring]
  | cons o a ih => cases o <;> simp [sendsDuring, ih] <;> omega

theorem copyRun_snoc {space : Space E F} (ops : List (StreamCopyOp E F)) (op : StreamCopyOp E F) :
    ∀ {s t : StreamCopying E F R}, s.run space (ops ++ [op]) = some t →
    ∃ m, s.run space ops = some m ∧ m.step space op = some t := by
  induction ops with
  | nil =>
    intro s t h
    rw [List.nil_append, StreamCopying.run] at h
    cases hs : s.step space op with
    | none => rw [hs] at h; cases h
    | some m => rw [hs] at h; exact ⟨s, rfl, by rw [hs]; exact h⟩
  | cons o ops ih =>
    intro s t h
    rw [List.cons_append, StreamCopying.run] at h
    cases hs : s.step space o with
    | none => rw [hs] at h; cases h
    | some m =>
      rw [hs] at h
      obtain ⟨m', h1, h2⟩ := ih h
      exact ⟨m', by rw [StreamCopying.run, hs]; exact h1, h2⟩

/-- The slice of the centres of `i` shows the centres of the original after `v` of the calls. -/
structure ViewAt (space : Space E F) (i : StreamHeap E F R) (cur : StreamHeap E F R)
    (calls : List (StreamHOp E F)) (v : Nat) : Prop where
  run : ∃ rs, StreamHeap.run space i calls = some (cur, rs)
  ok : SliceOk cur.heap cur.clust
  le : v ≤ calls.length
  shows : ∃ m rs, StreamHeap.run space i (calls.take v) = some (m, rs) ∧
    cur.heap.read i.clust = m.abs.clust.take i.clust.len ∧ i.clust.len ≤ m.abs.clust.length
  place : (v = calls.length ∧ i.clust.arr = cur.clust.arr ∧ i.clust.len ≤ cur.clust.len) ∨
    (i.clust.arr ≠ cur.clust.arr ∧ i.clust.arr < cur.heap.length)

theorem read_live {h : Heap E} {s v : Slice} (h1 : s.off = 0) (h2 : v.arr = s.arr) (h3 : v.off = 0)
    (h4 : v.len ≤ s.len) : h.read v = (h.read s).take v.len := by
  rw [Heap.read, Heap.read, h1, h2, h3, List.drop_zero, List.take_take, Nat.min_eq_left h4]

theorem ViewAt.start (space : Space E F) {i : StreamHeap E F R} (hs : SliceOk i.heap i.clust) :
    ViewAt space i i [] 0 :=
  ⟨⟨[], rfl⟩, hs, Nat.le_refl _, ⟨i, [], rfl, by
    show i.heap.read i.clust = (i.heap.read i.clust).take _
    rw [List.take_of_length_le (Nat.le_of_eq hs.read_length)], Nat.le_of_eq hs.read_length.symm⟩,
    .inl ⟨rfl, rfl, Nat.le_refl _⟩⟩

theorem ViewAt.call {space : Space E F} {i cur next : StreamHeap E F R} {calls : List (StreamHOp E F)} {v : Nat}
    (hi : SliceOk i.heap i.clust) (h : ViewAt space i cur calls v) {op : StreamHOp E F} (hc : op.call.isSome)
    {r} (hstep : cur.step space op = some (next, r)) : ∃ v', v ≤ v' ∧ ViewAt space i next (calls ++ [op]) v' := by
  have he := step_evolves h.ok hc hstep
  obtain ⟨rs, hrun⟩ := h.run
  have hrun' : StreamHeap.run space i (calls ++ [op]) = some (next, rs ++ [r]) :=
    hrun_append calls hrun (hrun_of_cons hstep rfl)
  obtain ⟨m, rs', hm, hsh, hl⟩ := h.shows
  have hle := h.le
  have htake : (calls ++ [op]).take v = calls.take v := List.take_append_of_le_length hle
  -- the array is left as it was
  have frozen : i.clust.arr ≠ next.clust.arr → next.heap.getD i.clust.arr [] = cur.heap.getD i.clust.arr [] →
      i.clust.arr < cur.heap.length → ∃ v', v ≤ v' ∧ ViewAt space i next (calls ++ [op]) v' := by
    intro h1 h2 h3
    refine ⟨v, Nat.le_refl _, ⟨_, hrun'⟩, he.ok, by rw [List.length_append]; omega, ⟨m, rs', by rw [htake]; exact hm,
      by rw [← hsh, Heap.read, Heap.read, h2], hl⟩, .inr ⟨h1, Nat.lt_of_lt_of_le h3 he.mono⟩⟩
  rcases h.place with ⟨p1, p2, p3⟩ | ⟨p1, p2⟩
  · have halloc := h.ok.alloc
    rcases he.place with ⟨q1, q2⟩ | ⟨q1, q2⟩
    · refine ⟨(calls ++ [op]).length, by rw [List.length_append]; omega, ⟨_, hrun'⟩, he.ok, Nat.le_refl _,
        ⟨next, _, by rw [List.take_length]; exact hrun', ?_, ?_⟩, .inl ⟨rfl, p2.trans q1.symm, Nat.le_trans p3 q2⟩⟩
      · exact read_live he.ok.off (p2.trans q1.symm) hi.off (Nat.le_trans p3 q2)
      · show i.clust.len ≤ (next.heap.read next.clust).length
        rw [he.ok.read_length]; omega
    · exact frozen (by omega) (by rw [p2]; exact q2) (by omega)
  · refine frozen ?_ (he.others _ p2 p1) p2
    rcases he.place with ⟨q1, q2⟩ | ⟨q1, q2⟩
    · rw [q1]; exact p1
    · omega

/-- A read of the loop gives a centre of the state shown. -/
theorem ViewAt.read {space : Space E F} {i cur : StreamHeap E F R} {calls : List (StreamHOp E F)} {v : Nat}
    (h : ViewAt space i cur calls v) (hi : SliceOk i.heap i.clust) {j : Nat} (hj : j < i.clust.len) :
    ∃ cs, centresAfter space i calls v = some cs ∧
      cs[j]? = some ((cur.heap.getD i.clust.arr []).getD (i.clust.off + j) default) := by
  obtain ⟨m, rs, hm, hsh, hl⟩ := h.shows
  refine ⟨m.abs.clust, by rw [centresAfter, hm]; rfl, ?_⟩
  have hjm : j < m.abs.clust.length := by omega
  have h1 : (m.abs.clust.take i.clust.len)[j]? = some m.abs.clust[j] := by
    rw [List.getElem?_take_of_lt hj, List.getElem?_eq_getElem hjm]
  rw [← hsh, Heap.read, hi.off, List.drop_zero, List.getElem?_take_of_lt hj] at h1
  rw [hi.off, Nat.zero_add, List.getD_eq_getElem?_getD, h1, List.getElem?_eq_getElem hjm]
  rfl

theorem centresAfter_append (space : Space E F) (i : StreamHeap E F R) {a : List (StreamHOp E F)} (b) {k : Nat}
    (hk : k ≤ a.length) : centresAfter space i (a ++ b) k = centresAfter space i a k := by
  rw [centresAfter, centresAfter, List.take_append_of_le_length hk]

/-- What holds along a copy. -/
structure CopyInv (space : Space E F) (i : StreamHeap E F R) (ops : List (StreamCopyOp E F))
    (t : StreamCopying E F R) (ks : List Nat) (v : Nat) : Prop where
  src : t.src = i.clust
  view : ViewAt space i t.impl (callsDuring ops) v
  count : t.out.length = min i.clust.len (sendsDuring ops)
  len : ks.length = t.out.length
  sorted : ks.Pairwise (· ≤ ·)
  le : ∀ k ∈ ks, k ≤ v
  elem : ∀ (j k : Nat) (c : E), ks[j]? = some k → t.out[j]? = some c →
    ∃ cs, centresAfter space i (callsDuring ops) k = some cs ∧ cs[j]? = some c

theorem copy_inv {space : Space E F} {i : StreamHeap E F R} (hi : SliceOk i.heap i.clust)
    (ops : List (StreamCopyOp E F)) : CallsOnly (callsDuring ops) →
    ∀ {t : StreamCopying E F R}, StreamCopying.run space ⟨i, i.clust, []⟩ ops = some t →
    ∃ ks v, CopyInv space i ops t ks v := by
  induction ops using List.reverseRecOn with
  | nil =>
    intro _ t h
    cases h
    exact ⟨[], 0, rfl, ViewAt.start space hi, by simp [sendsDuring], rfl, List.Pairwise.nil, by simp, by simp⟩
  | append_singleton ops op ih =>
    intro hc t h
    rw [callsDuring_append] at hc
    obtain ⟨m, h1, h2⟩ := copyRun_snoc ops op h
    obtain ⟨ks, v, hv⟩ := ih (fun o ho => hc o (List.mem_append_left _ ho)) h1
    cases op with
    | send =>
      have hcalls : callsDuring (ops ++ [.send]) = callsDuring ops := by rw [callsDuring_append]; simp [callsDuring]
      have hsends : sendsDuring (ops ++ [.send]) = sendsDuring ops + 1 := by rw [sendsDuring_append]; rfl
      have hcount := hv.count
      rw [StreamCopying.step] at h2
      split at h2
      · rename_i hlt
        cases h2
        rw [hv.src] at hlt
        obtain ⟨cs, g1, g2⟩ := hv.view.read hi hlt
        refine ⟨ks ++ [v], v, ⟨hv.src, by rw [hcalls]; exact hv.view, ?_, ?_, ?_, ?_, ?_⟩⟩
        · rw [hsends, List.length_append, hcount, List.length_singleton]; omega
        · rw [List.length_append, List.length_append, hv.len]; rfl
        · exact List.pairwise_append.2 ⟨hv.sorted, List.pairwise_singleton _ _, fun a ha b hb => by
            rw [List.mem_singleton.1 hb]; exact hv.le a ha⟩
        · intro k hk
          rcases List.mem_append.1 hk with hk | hk
          · exact hv.le k hk
          · rw [List.mem_singleton.1 hk]
        · intro j k c hk hcj
          rw [hcalls]
          rcases Nat.lt_or_ge j ks.length with hj | hj
          · rw [List.getElem?_append_left hj] at hk
            rw [List.getElem?_append_left (by rw [← hv.len]; exact hj)] at hcj
            exact hv.elem j k c hk hcj
          · have hjl : j < ks.length + 1 := by
              have := (List.getElem?_eq_some_iff.1 hk).1
              rwa [List.length_append, List.length_singleton] at this
            have hje : j = m.out.length := by have := hv.len; omega
            subst hje
            rw [← hv.len, List.getElem?_concat_length] at hk
            rw [List.getElem?_concat_length, hv.src] at hcj
            cases hk
            exact ⟨cs, g1, g2.trans hcj⟩
      · rename_i hnl
        cases h2
        rw [hv.src] at hnl
        exact ⟨ks, v, ⟨hv.src, by rw [hcalls]; exact hv.view, by rw [hsends]; omega, hv.len, hv.sorted, hv.le,
          by rw [hcalls]; exact hv.elem⟩⟩
    | call op =>
      have hcalls : callsDuring (ops ++ [.call op]) = callsDuring ops ++ [op] := by rw [callsDuring_append]; rfl
      have hsends : sendsDuring (ops ++ [.call op]) = sendsDuring ops := by rw [sendsDuring_append]; rfl
      rw [StreamCopying.step] at h2
      cases hst : m.impl.step space op with
      | none => rw [hst] at h2; cases h2
      | some q =>
        obtain ⟨n, r⟩ := q
        rw [hst] at h2
        cases h2
        obtain ⟨v', hv1, hv2⟩ := hv.view.call hi (hc op (List.mem_append_right _ List.mem_cons_self)) hst
        refine ⟨ks, v', ⟨hv.src, by rw [hcalls]; exact hv2, by rw [hsends]; exact hv.count, hv.len, hv.sorted,
          fun k hk => Nat.le_trans (hv.le k hk) hv1, fun j k c hk hcj => ?_⟩⟩
        rw [hcalls, centresAfter_append space i _
          (Nat.le_trans (hv.le k (List.mem_of_getElem? hk)) hv.view.le)]
        exact hv.elem j k c hk hcj

/-- **C153 (when it panics).** `Copy` of a streaming algorithm panics exactly when there are more centres than the
size of the buffer (or the size is negative), whatever the original does afterwards. -/
theorem C153_panics {i : StreamHeap E F R} (hi : SliceOk i.heap i.clust) (conf : StreamingConf F R) :
    StreamCopying.start i conf = none ↔ conf.bufferSize < i.abs.clust.length ∨ conf.bufferSize < 0 := by
  have : i.abs.clust.length = i.clust.len := hi.read_length
  unfold StreamCopying.start
  rw [this]
  split <;> simp_all

/-- **C153 (times).** `Copy` at any time while the original works: the copy waits for as many elements as there were
centres when it was called; its `j`-th element is the `j`-th centre of the original at some moment during the copy, and
these moments are in the order of the elements.  The original does what it would have done alone. -/
theorem C153_times {space : Space E F} {i : StreamHeap E F R} (hi : SliceOk i.heap i.clust)
    {conf : StreamingConf F R} {s t : StreamCopying E F R} (hs : StreamCopying.start i conf = some s)
    {ops : List (StreamCopyOp E F)} (hc : CallsOnly (callsDuring ops)) (hr : s.run space ops = some t) :
    (∃ rs, StreamHeap.run space i (callsDuring ops) = some (t.impl, rs)) ∧
    (t.result conf).c.length = min i.abs.clust.length (sendsDuring ops) ∧
    ((t.result conf).c.length : Int) ≤ conf.bufferSize ∧
    ∃ ks : List Nat, ks.length = (t.result conf).c.length ∧ ks.Pairwise (· ≤ ·) ∧
      (∀ k ∈ ks, k ≤ (callsDuring ops).length) ∧
      ∀ (j k : Nat) (c : E), ks[j]? = some k → (t.result conf).c[j]? = some c →
        ∃ cs, centresAfter space i (callsDuring ops) k = some cs ∧ cs[j]? = some c := by
  have hlen : i.abs.clust.length = i.clust.len := hi.read_length
  unfold StreamCopying.start at hs
  split at hs
  · cases hs
  · rename_i hb
    cases hs
    obtain ⟨ks, v, h⟩ := copy_inv hi ops hc hr
    have := h.count
    refine ⟨h.view.run, by rw [hlen]; exact h.count, ?_, ks, h.len, h.sorted,
      fun k hk => Nat.le_trans (h.le k hk) h.view.le, h.elem⟩
    show ((t.out.length : Nat) : Int) ≤ _
    omega

/-- **C153 (live).** Until the array of the centres is replaced, what the loop sends is the centre the original has
at this very moment. -/
theorem C153_live {space : Space E F} {i : StreamHeap E F R} (hi : SliceOk i.heap i.clust)
    {conf : StreamingConf F R} {s t u : StreamCopying E F R} (hs : StreamCopying.start i conf = some s)
    {ops : List (StreamCopyOp E F)} (hc : CallsOnly (callsDuring ops)) (hr : s.run space ops = some t)
    (hl : t.impl.clust.arr = i.clust.arr) (hn : t.out.length < i.abs.clust.length)
    (hu : t.step space .send = some u) :
    ∃ c, u.out = t.out ++ [c] ∧ t.impl.abs.clust[t.out.length]? = some c := by
  have hlen : i.abs.clust.length = i.clust.len := hi.read_length
  unfold StreamCopying.start at hs
  split at hs
  · cases hs
  · cases hs
    obtain ⟨ks, v, h⟩ := copy_inv hi ops hc hr
    have hj : t.out.length < i.clust.len := by omega
    obtain ⟨cs, g1, g2⟩ := h.view.read hi hj
    rcases h.view.place with ⟨p1, _, _⟩ | ⟨p1, _⟩
    · rw [StreamCopying.step, h.src, if_pos hj] at hu
      cases hu
      refine ⟨_, rfl, ?_⟩
      obtain ⟨rs, hrun⟩ := h.view.run
      rw [centresAfter, p1, List.take_length, hrun] at g1
      cases g1
      exact g2
    · exact absurd hl.symm p1

/-- `Push` leaves the centres. -/
theorem centresAfter_pushes (space : Space E F) (i : StreamHeap E F R)
    (calls : List (StreamHOp E F)) (hp : ∀ op ∈ calls, NotPush op = false) (k : Nat) :
    centresAfter space i calls k = some i.abs.clust := by
  have : ∀ (l : List (StreamHOp E F)) (i : StreamHeap E F R), (∀ op ∈ l, NotPush op = false) →
      (StreamHeap.run space i l).map (fun r => r.1.abs.clust) = some i.abs.clust := by
    intro l
    induction l with
    | nil => intro i _; rfl
    | cons op l ih =>
      intro i h
      have h0 := h op List.mem_cons_self
      cases op with
      | push e =>
        have := ih (i.push e).1 fun o ho => h o (List.mem_cons_of_mem _ ho)
        have hcl : (i.push e).1.abs.clust = i.abs.clust := by
          unfold StreamHeap.push; split <;> rfl
        rw [hcl] at this
        unfold StreamHeap.run
        dsimp only [StreamHeap.step]
        cases hr : StreamHeap.run space (i.push e).1 l with
        | none => rw [hr] at this; cases this
        | some q => rw [hr] at this; simpa using this
      | _ => cases h0
  exact this _ i fun op ho => hp op (List.mem_of_mem_take ho)

/-- **C153 (quiet).** If the original does nothing meanwhile, or only receives elements, the copy is the one of
`C71`. -/
theorem C153_quiet {space : Space E F} {i : StreamHeap E F R} (hi : SliceOk i.heap i.clust)
    {conf : StreamingConf F R} {s t : StreamCopying E F R} (hs : StreamCopying.start i conf = some s)
    {ops : List (StreamCopyOp E F)} (hp : ∀ op ∈ callsDuring ops, NotPush op = false) (hr : s.run space ops = some t)
    (hd : i.abs.clust.length ≤ sendsDuring ops) : i.abs.copy conf = some (t.result conf) := by
  have hc : CallsOnly (callsDuring ops) := by
    intro op ho
    have := hp op ho
    cases op <;> first | rfl | cases this
  obtain ⟨_, h1, h2, ks, h3, _, h5, h6⟩ := C153_times hi hs hc hr
  have hlen : (t.result conf).c.length = i.abs.clust.length := by omega
  have hout : t.out = i.abs.clust := by
    refine List.ext_getElem? fun j => ?_
    rcases Nat.lt_or_ge j (t.result conf).c.length with hj | hj
    · have hk : ks[j]? = some ks[j] := List.getElem?_eq_getElem (by omega)
      have ho : (t.result conf).c[j]? = some (t.result conf).c[j] := List.getElem?_eq_getElem hj
      obtain ⟨cs, g1, g2⟩ := h6 j _ _ hk ho
      rw [centresAfter_pushes space i _ hp] at g1
      cases g1
      exact ho.trans g2.symm
    · exact (List.getElem?_eq_none hj).trans (List.getElem?_eq_none (by omega)).symm
  have hno : ¬ (conf.bufferSize < i.abs.clust.length ∨ conf.bufferSize < 0) := by
    rw [← C153_panics hi]; rw [hs]; simp
  unfold StreamImpl.copy StreamImpl.new
  rw [if_neg (by omega), if_neg (by omega)]
  rw [StreamCopying.result, hout]

/-- A call changes at most one of the centres there are. -/
theorem step_one_centre (space : Space E F) (impl impl' : StreamImpl E F R) (op : StreamOp E F) {r}
    (h : impl.step space op = some (impl', r)) :
    ∃ p, ∀ j, j ≠ p → j < impl.clust.length → impl'.clust[j]? = impl.clust[j]? := by
  have happ : ∀ {l : List E} (e : E), l = impl.clust ++ [e] →
      ∀ j, j ≠ impl.clust.length → j < impl.clust.length → l[j]? = impl.clust[j]? := by
    intro l e he j _ hj
    rw [he, List.getElem?_append_left hj]
  cases op with
  | push e =>
    refine ⟨0, fun j _ _ => ?_⟩
    unfold StreamImpl.step StreamImpl.push at h
    dsimp only at h
    split at h <;> (cases h; rfl)
  | init =>
    have hi : impl.init.1 = impl' := congrArg Prod.fst (Option.some.inj h)
    refine ⟨impl.clust.length, ?_⟩
    rw [← hi]
    cases hc : impl.c with
    | nil => intro j _ _; rw [StreamImpl.init, hc]
    | cons e q =>
      refine happ e ?_
      rw [StreamImpl.init, hc]
      dsimp only
      unfold StreamImpl.addCenter StreamImpl.updateMaxDistance
      dsimp only
      split <;> rfl
  | iterate t =>
    unfold StreamImpl.step StreamImpl.iterate at h
    dsimp only at h
    cases hc : impl.c with
    | nil => rw [hc] at h; cases h; exact ⟨0, fun _ _ _ => rfl⟩
    | cons e q =>
      rw [hc] at h
      dsimp only at h
      cases hp : StreamImpl.process { impl with c := q } space t e with
      | none => rw [hp] at h; cases h
      | some i1 =>
        rw [hp] at h
        cases h
        obtain ⟨_, _, _, ⟨h1, _⟩ | ⟨p, _, _, _, _, _, h1, _⟩⟩ := process_cases space _ _ t e hp
        · exact ⟨impl.clust.length, happ e h1⟩
        · refine ⟨p, fun j hj _ => ?_⟩
          rw [h1, List.getElem?_set_ne (Ne.symm hj)]

theorem centresAfter_succ (space : Space E F) {i next : StreamHeap E F R} {op : StreamHOp E F} {r}
    (calls : List (StreamHOp E F)) (h : i.step space op = some (next, r)) (k : Nat) :
    centresAfter space i (op :: calls) (k + 1) = centresAfter space next calls k := by
  unfold centresAfter
  rw [List.take_succ_cons]
  conv_lhs => unfold StreamHeap.run
  rw [h]
  dsimp only
  cases StreamHeap.run space next (calls.take k) <;> rfl

theorem centresAfter_zero (space : Space E F) (i : StreamHeap E F R) (calls : List (StreamHOp E F)) :
    centresAfter space i calls 0 = some i.abs.clust := rfl

theorem centresAfter_one_work (space : Space E F) (calls : List (StreamHOp E F)) : ∀ {i : StreamHeap E F R},
    SliceOk i.heap i.clust → CallsOnly calls → (calls.filter NotPush).length ≤ 1 →
    ∃ p, ∀ k cs, centresAfter space i calls k = some cs → ∀ j, j ≠ p → j < i.abs.clust.length →
      cs[j]? = i.abs.clust[j]? := by
  induction calls with
  | nil =>
    intro i _ _ _
    refine ⟨0, fun k cs h j _ _ => ?_⟩
    rw [centresAfter, List.take_nil] at h
    cases h
    rfl
  | cons op calls ih =>
    intro i hs hc hw
    obtain ⟨o, ho⟩ := Option.isSome_iff_exists.1 (hc op List.mem_cons_self)
    have hcr : CallsOnly calls := fun o ho => hc o (List.mem_cons_of_mem _ ho)
    cases hst : i.step space op with
    | none =>
      refine ⟨0, fun k cs h j _ _ => ?_⟩
      cases k with
      | zero => cases h; rfl
      | succ k =>
        unfold centresAfter at h
        rw [List.take_succ_cons] at h
        unfold StreamHeap.run at h
        rw [hst] at h
        cases h
    | some q =>
      obtain ⟨next, r⟩ := q
      have hab := (step_heap hs space ho).1
      rw [hst] at hab
      have hev := step_evolves hs (hc op List.mem_cons_self) hst
      cases hwk : NotPush op with
      | false =>
        rw [List.filter_cons_of_neg (by rw [hwk]; simp)] at hw
        obtain ⟨p, hp⟩ := ih hev.ok hcr hw
        have hsame : next.abs.clust = i.abs.clust := by
          have := centresAfter_pushes space i [op] (by simpa using hwk) 1
          rw [centresAfter_succ space [] hst, centresAfter_zero] at this
          exact Option.some.inj this
        rw [hsame] at hp
        refine ⟨p, fun k cs h j hj hl => ?_⟩
        cases k with
        | zero => cases h; rfl
        | succ k => rw [centresAfter_succ space calls hst] at h; exact hp k cs h j hj hl
      | true =>
        rw [List.filter_cons_of_pos hwk, List.length_cons] at hw
        have hnil : calls.filter NotPush = [] := List.eq_nil_of_length_eq_zero (by omega)
        obtain ⟨p, hp⟩ := step_one_centre space i.abs next.abs o hab.symm
        refine ⟨p, fun k cs h j hj hl => ?_⟩
        cases k with
        | zero => cases h; rfl
        | succ k =>
          rw [centresAfter_succ space calls hst, centresAfter_pushes] at h
          · cases h; exact hp j hj hl
          · intro op' ho'
            have := List.filter_eq_nil_iff.1 hnil op' ho'
            simpa using this

/-- **C153 (one call).** If at most one call other than `Push` takes place during the copy, the copy holds what the
original had as centres at one moment: the first ones, as many as there were when `Copy` was called. -/
theorem C153_one {space : Space E F} {i : StreamHeap E F R} (hi : SliceOk i.heap i.clust)
    {conf : StreamingConf F R} {s t : StreamCopying E F R} (hs : StreamCopying.start i conf = some s)
    {ops : List (StreamCopyOp E F)} (hc : CallsOnly (callsDuring ops)) (hr : s.run space ops = some t)
    (hd : i.abs.clust.length ≤ sendsDuring ops) (hw : ((callsDuring ops).filter NotPush).length ≤ 1) :
    ∃ k cs, k ≤ (callsDuring ops).length ∧ centresAfter space i (callsDuring ops) k = some cs ∧
      (t.result conf).c = cs.take i.abs.clust.length := by
  obtain ⟨_, h1, _, ks, h3, _, h5, h6⟩ := C153_times hi hs hc hr
  have hlen : (t.result conf).c.length = i.abs.clust.length := by omega
  obtain ⟨p, hp⟩ := centresAfter_one_work space (callsDuring ops) hi hc hw
  have build : ∀ k cs, k ≤ (callsDuring ops).length → centresAfter space i (callsDuring ops) k = some cs →
      (∀ c, (t.result conf).c[p]? = some c → cs[p]? = some c) →
      ∃ k cs, k ≤ (callsDuring ops).length ∧ centresAfter space i (callsDuring ops) k = some cs ∧
        (t.result conf).c = cs.take i.abs.clust.length := by
    intro k cs hk hcs hpp
    have hsome : ∀ j, j < i.abs.clust.length → (t.result conf).c[j]? = cs[j]? := by
      intro j hj
      have ho : (t.result conf).c[j]? = some (t.result conf).c[j] := List.getElem?_eq_getElem (by omega)
      by_cases hjp : j = p
      · subst hjp
        rw [hpp _ ho]; exact ho
      · obtain ⟨cs', g1, g2⟩ := h6 j ks[j] _ (List.getElem?_eq_getElem (by omega)) ho
        rw [hp k cs hcs j hjp hj, ← hp _ cs' g1 j hjp hj, g2]; exact ho
    refine ⟨k, cs, hk, hcs, List.ext_getElem? fun j => ?_⟩
    rcases Nat.lt_or_ge j i.abs.clust.length with hj | hj
    · rw [List.getElem?_take_of_lt hj, hsome j hj]
    · rw [List.getElem?_eq_none (by omega), List.getElem?_eq_none (by rw [List.length_take]; omega)]
  rcases Nat.lt_or_ge p ks.length with hpl | hpl
  · have hk : ks[p]? = some ks[p] := List.getElem?_eq_getElem hpl
    have ho : (t.result conf).c[p]? = some (t.result conf).c[p] := List.getElem?_eq_getElem (by omega)
    obtain ⟨cs, g1, g2⟩ := h6 p _ _ hk ho
    refine build ks[p] cs (h5 _ (List.getElem_mem hpl)) g1 fun c hc' => ?_
    rw [g2, ← ho, hc']
  · refine build 0 i.abs.clust (Nat.zero_le _) rfl fun c hc' => ?_
    rw [List.getElem?_eq_none (by omega)] at hc'
    cases hc'

end

/-- Two centres and room for a third one, two elements waiting. -/
def exCopyState : StreamHeap Int Int Unit := ⟨[[10, 40, 0]], 30, ⟨0, 0, 2⟩, [1, 1], [12, 44], exStreamConf, 1⟩

/-- **C153 (claim examined: "the copy holds the centres the original had at some moment").** False: with the centres
10 and 40, the first one is sent, two iterations move both to 11 and 42, the second one is sent: the copy waits for
10 and 42, though the original had 10, 40, then 11, 40, then 11, 42. -/
theorem C153_torn : SliceOk exCopyState.heap exCopyState.clust ∧ exCopyState.abs.clust = [10, 40] ∧
    ((StreamCopying.start exCopyState exStreamConf).bind fun s =>
      (s.run exSpace [.send, .call (.iterate 1 0), .call (.iterate 1 0), .send]).map fun t =>
        ((t.result exStreamConf).c, t.impl.abs.clust)) = some ([10, 42], [11, 42]) ∧
    ∀ k cs, centresAfter exSpace exCopyState [.iterate 1 0, .iterate 1 0] k = some cs → cs ≠ [10, 42] := by
  refine ⟨⟨by decide, rfl, by decide⟩, by decide, by decide +kernel, ?_⟩
  have key : ∀ k, k ≤ 2 → ∀ cs, centresAfter exSpace exCopyState [.iterate 1 0, .iterate 1 0] k = some cs →
      cs ≠ [10, 42] := by
    intro k hk cs h
    have hk' : k = 0 ∨ k = 1 ∨ k = 2 := by omega
    have e0 : centresAfter exSpace exCopyState [.iterate 1 0, .iterate 1 0] 0 = some [10, 40] := by decide +kernel
    have e1 : centresAfter exSpace exCopyState [.iterate 1 0, .iterate 1 0] 1 = some [11, 40] := by decide +kernel
    have e2 : centresAfter exSpace exCopyState [.iterate 1 0, .iterate 1 0] 2 = some [11, 42] := by decide +kernel
    rcases hk' with rfl | rfl | rfl
    · rw [e0] at h; cases h; decide
    · rw [e1] at h; cases h; decide
    · rw [e2] at h; cases h; decide
  intro k cs h
  rcases Nat.le_total k 2 with hk | hk
  · exact key k hk cs h
  · refine key 2 (Nat.le_refl _) cs ?_
    rw [← h, centresAfter, centresAfter, List.take_of_length_le (by simp), List.take_of_length_le (by simpa using hk)]

/-- The hypotheses of the theorems hold for a copy during which the original iterates and receives an element. -/
example : ∃ s t : StreamCopying Int Int Unit, StreamCopying.start exCopyState exStreamConf = some s ∧
    s.run exSpace [.send, .call (.iterate 1 0), .call (.push 5), .send] = some t ∧
    Spec.CallsOnly (callsDuring [.send, .call (.iterate (1 : Int) 0), .call (.push (5 : Int)), .send]) ∧
    (t.result exStreamConf).c = [10, 40] ∧ t.impl.abs.clust = [11, 40] := by
  refine ⟨_, _, rfl, rfl, ?_, by decide +kernel, by decide +kernel⟩
  intro o ho
  simp [callsDuring] at ho
  rcases ho with rfl | rfl <;> rfl

end Distclus
