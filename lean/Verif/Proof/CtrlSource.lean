import Verif.Proof.CtrlSerial
import Verif.Spec.CtrlSource
/-!
# Where centroids come from: the invariants
-/
namespace Distclus
open Ctrl Spec
namespace Algo
variable {C : Type} {conf : Conf} {s s' : Algo C}

theorem _root_.Distclus.Spec.Produced.cons {c : C} {l : List (Event C)} (h : Produced c l) (e : Event C) :
    Produced c (e :: l) := by
  rcases h with ⟨x, h⟩ | ⟨r, h⟩
  · exact .inl ⟨x, List.mem_cons_of_mem _ h⟩
  · exact .inr ⟨r, List.mem_cons_of_mem _ h⟩

/-- The centroids the controller holds, and those a goroutine is about to store, have been produced. -/
structure SrcInv (s : Algo C) : Prop where
  cur : ∀ c, s.centroids = some c → Produced c s.log
  sav : ∀ u c, cell (s.thr u).pc = .sav c → Produced c s.log
  inr : ∀ u c, cell (s.thr u).pc = .inr c → ∃ e, .initRet c e ∈ s.log
  log : Sourced s.log

theorem SrcInv.logStep (h : SrcInv s) (hs : Step conf s s') : Sourced s'.log := by
  rcases hs.log with ⟨e, _⟩ | ⟨e, hl, -, hf⟩
  · rw [e]; exact h.log
  · rw [hl]
    refine ⟨fun c hc => ?_, h.log⟩
    cases e
    case ret t r =>
      cases r
      case centroids => exact h.cur c (hf.2.1.symm.trans hc)
      all_goals cases hc
    case iterCall r st x => exact h.cur c (hf.2.2.1.symm.trans hc)
    case saved x =>
      obtain ⟨t, ht⟩ := hf
      cases hc
      exact h.sav t c (by rw [ht]; rfl)
    all_goals cases hc

theorem SrcInv.init : SrcInv (new : Algo C) := by
  refine ⟨fun c h => (by cases h), fun u c h => (by cases h), fun u c h => (by cases h), trivial⟩

theorem SrcInv.step (hI : SrcInv s) (hs : Step conf s s') (hc : CellStep s s') : SrcInv s' := by
  have hlog := hI.logStep hs
  have keep : ∀ e, s'.log = e :: s.log → (∀ c, Produced c s.log → Produced c s'.log) ∧
      ∀ c : Option C, (∃ e, .initRet c e ∈ s.log) → ∃ e, .initRet c e ∈ s'.log := fun e hl => by
    rw [hl]; exact ⟨fun c h => h.cons e, fun c ⟨x, h⟩ => ⟨x, List.mem_cons_of_mem _ h⟩⟩
  have same : s'.log = s.log → (∀ c, Produced c s.log → Produced c s'.log) ∧
      ∀ c : Option C, (∃ e, .initRet c e ∈ s.log) → ∃ e, .initRet c e ∈ s'.log := fun hl => by
    rw [hl]; exact ⟨fun c h => h, fun c h => h⟩
  cases hc with
  | still hc hi hl hp =>
    have ⟨hm, hn⟩ := hl.elim same fun ⟨e, hl, _⟩ => keep e hl
    exact ⟨fun c h => hm c (hI.cur c (hc ▸ h)), fun u c h => hm c (hI.sav u c (hp u ▸ h)),
      fun u c h => hn c (hI.inr u c (hp u ▸ h)), hlog⟩
  | start u h0 h1 hv hc hi hl =>
    have ⟨hm, hn⟩ := hl.elim same fun ⟨e, hl, _⟩ => keep e hl
    refine ⟨fun c h => hm c (hI.cur c (hc ▸ h)), fun v c h => ?_, fun v c h => ?_, hlog⟩
    all_goals
      by_cases e : v = u
      · subst e; rw [h1] at h; cases h
      · rw [hv v e] at h
        first | exact hm c (hI.sav v c h) | exact hn c (hI.inr v c h)
  | initRet u x e h0 h1 hv hc hi hl =>
    have ⟨hm, hn⟩ := keep _ hl
    refine ⟨fun c h => hm c (hI.cur c (hc ▸ h)), fun v c h => ?_, fun v c h => ?_, hlog⟩
    · by_cases e : v = u
      · subst e; rw [h1] at h; cases h
      · rw [hv v e] at h; exact hm c (hI.sav v c h)
    · by_cases e' : v = u
      · subst e'; rw [h1] at h; cases h
        rw [hl]; exact ⟨e, List.mem_cons_self⟩
      · rw [hv v e'] at h; exact hn c (hI.inr v c h)
  | initSave u x h0 h1 hv hc hi hl =>
    have ⟨hm, hn⟩ := same hl
    refine ⟨fun c h => ?_, fun v c h => ?_, fun v c h => ?_, hlog⟩
    · rw [hc] at h; subst h
      exact .inl (hn _ (hI.inr u _ h0))
    all_goals
      by_cases e : v = u
      · subst e; rw [h1] at h; cases h
      · rw [hv v e] at h
        first | exact hm c (hI.sav v c h) | exact hn c (hI.inr v c h)
  | iterCall u st h0 h1 hv hc hi hl =>
    have ⟨hm, hn⟩ := keep _ hl
    refine ⟨fun c h => hm c (hI.cur c (hc ▸ h)), fun v c h => ?_, fun v c h => ?_, hlog⟩
    all_goals
      by_cases e : v = u
      · subst e; rw [h1] at h; cases h
      · rw [hv v e] at h
        first | exact hm c (hI.sav v c h) | exact hn c (hI.inr v c h)
  | iterOk u x h0 h1 hv hc hi hl =>
    have ⟨hm, hn⟩ := keep _ hl
    refine ⟨fun c h => hm c (hI.cur c (hc ▸ h)), fun v c h => ?_, fun v c h => ?_, hlog⟩
    · by_cases e : v = u
      · subst e; rw [h1] at h; cases h
        rw [hl]; exact .inr ⟨v, List.mem_cons_self⟩
      · rw [hv v e] at h; exact hm c (hI.sav v c h)
    · by_cases e : v = u
      · subst e; rw [h1] at h; cases h
      · rw [hv v e] at h; exact hn c (hI.inr v c h)
  | iterEnd u x he h0 h1 hv hc hi hl =>
    have ⟨hm, hn⟩ := keep _ hl
    refine ⟨fun c h => hm c (hI.cur c (hc ▸ h)), fun v c h => ?_, fun v c h => ?_, hlog⟩
    all_goals
      by_cases e : v = u
      · subst e; rw [h1] at h; cases h
      · rw [hv v e] at h
        first | exact hm c (hI.sav v c h) | exact hn c (hI.inr v c h)
  | save u x h0 h1 hv hc hi hl =>
    have ⟨hm, hn⟩ := keep _ hl
    refine ⟨fun c h => ?_, fun v c h => ?_, fun v c h => ?_, hlog⟩
    · rw [hc] at h; injection h with h; subst h; exact hm _ (hI.sav u _ h0)
    all_goals
      by_cases e : v = u
      · subst e; rw [h1] at h; cases h
      · rw [hv v e] at h
        first | exact hm c (hI.sav v c h) | exact hn c (hI.inr v c h)

theorem Reachable.src (h : Reachable conf s) : SrcInv s := by
  have : (LockInv s ∧ StInv s ∧ (s.status.value = .created → s.iterations = 0)) ∧ SrcInv s :=
    h.induction (P := fun s => (LockInv s ∧ StInv s ∧ (s.status.value = .created → s.iterations = 0)) ∧
        SrcInv s)
      ⟨⟨LockInv.init, StInv.init, fun _ => rfl⟩, SrcInv.init⟩
      (fun {s s'} hI hs => ⟨⟨hI.1.1.step hs, hI.1.2.1.step hI.1.1 hs, created_step hI.1.1 hI.1.2.1 hI.1.2.2 hs⟩,
        hI.2.step hs (hs.cell hI.1.1 hI.1.2.2)⟩)
  exact this.2

/-! ## What the implementation keeps -/

theorem given_mem {r : Nat} {x : Option C} : ∀ {l : List (Event C)}, given r l = some x →
    ∃ st, .iterCall r st x ∈ l := by
  intro l
  induction l with
  | nil => intro h; cases h
  | cons e l ih =>
    intro h
    have up : (∃ st, Event.iterCall r st x ∈ l) → ∃ st, Event.iterCall r st x ∈ e :: l :=
      fun ⟨st, h⟩ => ⟨st, List.mem_cons_of_mem _ h⟩
    cases e
    case iterCall r' st c =>
      simp only [given] at h
      split at h
      · rename_i e; cases h; subst e; exact ⟨st, List.mem_cons_self⟩
      · exact up (ih h)
    all_goals exact up (ih h)

theorem _root_.Distclus.Spec.Sourced.mem {e : Event C} {c : C} : ∀ {l : List (Event C)}, Sourced l →
    e ∈ l → shows e = some c → Produced c l := by
  intro l
  induction l with
  | nil => intro _ h; cases h
  | cons e' l ih =>
    intro hS h hc
    rcases List.mem_cons.1 h with rfl | h
    · exact (hS.1 c hc).cons _
    · exact (ih hS.2 h hc).cons _

theorem keeps_produced {Q : C → Prop} : ∀ {l : List (Event C)}, Sourced l → Keeps Q l →
    ∀ c, Produced c l → Q c := by
  intro l
  induction l with
  | nil =>
    intro _ _ c h
    rcases h with ⟨_, h⟩ | ⟨_, h⟩ <;> cases h
  | cons e l ih =>
    intro hS hK c hP
    have hK' : Keeps Q l := by
      cases e <;> first | exact hK.2 | exact hK
    have hq := ih hS.2 hK'
    rcases hP with ⟨x, h⟩ | ⟨r, h⟩
    · rcases List.mem_cons.1 h with rfl | h
      · exact hK.1 c rfl
      · exact hq c (.inl ⟨x, h⟩)
    · rcases List.mem_cons.1 h with rfl | h
      · refine hK.1 fun x hx => ?_
        obtain ⟨st, hm⟩ := given_mem hx
        exact hq x (hS.2.mem hm rfl)
      · exact hq c (.inr ⟨r, h⟩)

/-! ## Before the end of the first initialisation -/

/-- Where goroutines can be before the end of the first initialisation. -/
def early : PC C → Bool
  | .in8 _ _ | .in9 _ _ | .in10 .play _ | .pl1 | .pl2 | .pl3 | .it1 _ | .it2 | .it3
  | .sd0 _ _ | .sd1 _ _ | .sd2 _ | .sd3 _ _ | .wa1 _ _ | .wa2 _ _ | .wa3
  | .r0 | .r1 | .r2 _ | .r3 _ | .r4 _ | .r5 _ _ | .r6 | .r7 | .r8 | .r9 | .r10 _ | .r11 _ | .rI | .rS _
  | .rS' _ | .r12 | .r13 | .r14 | .r15 _ | .r16 _ | .ti0
  | .c0 _ | .c1 _ | .c2 _ | .c3 _ | .c4 _ | .c5 _ | .c6 | .c7 | .c8 => false
  | _ => true

theorem early_entry (op : Op) : early (entry op : PC C) = true := by cases op <;> rfl

theorem early_back (s : Algo C) (u : Nat) : early (back s u) = true := by
  simp only [back]; split <;> rfl

theorem early_begin {v : ClustStatus} {k : InitFrom} (hv : v = .created ∨ v = .initializing)
    (hk : k = .play → v = .created) : early (beginPc v k : PC C) = true := by
  rcases hv with rfl | rfl
  · rfl
  · cases k
    · rfl
    · cases hk rfl

theorem early_edge {u : Nat} {p q : PC C} (hv : s.status.value = .created ∨ s.status.value = .initializing)
    (he : ∀ t, early (s.thr t).pc = true) (hp : early p = true) (h : Edge conf s u p q)
    (h7 : ∀ k c e, p ≠ .in7 k c e) : early q = true := by
  have no : ∀ {x : ClustStatus}, s.status.value = x → x ≠ .created → x ≠ .initializing → False :=
    fun h h1 h2 => by
      rcases hv with hv | hv
      · exact h1 (h.symm.trans hv)
      · exact h2 (h.symm.trans hv)
  cases h
  case bornRun hu t h => have := he t; rw [h] at this; cases this
  case bornTimer hu t h => have := he t; rw [h] at this; cases this
  case call op hk => exact early_entry op
  case pu5 hm => exact (by split <;> rfl)
  case in0 hs => exact early_begin hv (by rintro ⟨⟩)
  case in7 k c e hr => exact absurd rfl (h7 k c e)
  case pl0Init hs hw =>
    refine early_begin hv fun _ => ?_
    rcases hw with hw | hw
    · exact absurd (no hw (by rintro ⟨⟩) (by rintro ⟨⟩)) id
    · exact hw
  case pl0Idle hs hw => exact absurd (no hw (by rintro ⟨⟩) (by rintro ⟨⟩)) id
  case pl0Ready hs hw => exact absurd (no hw (by rintro ⟨⟩) (by rintro ⟨⟩)) id
  case pa0 hs hw => exact absurd (no hw (by rintro ⟨⟩) (by rintro ⟨⟩)) id
  case it0Ready e hs hw => exact absurd (no hw (by rintro ⟨⟩) (by rintro ⟨⟩)) id
  case it0 e hs hw =>
    rcases hw with hw | hw <;> exact absurd (no hw (by rintro ⟨⟩) (by rintro ⟨⟩)) id
  case wa0Running c d hs hw => exact absurd (no hw (by rintro ⟨⟩) (by rintro ⟨⟩)) id
  case nl1 st hm => exact (by split <;> rfl)
  all_goals first
    | rfl
    | exact early_back s u
    | (cases hp)

/-- As long as the controller has no centroids, no initialisation has ended. -/
def EarlyInv (s : Algo C) : Prop :=
  s.centroids = none → (∀ t, early (s.thr t).pc = true) ∧
    (s.status.value = .created ∨ s.status.value = .initializing) ∧
    (∀ st, .set st ∈ s.log → st.value = .initializing) ∧ (∀ r st c, .iterCall r st c ∉ s.log)

theorem EarlyInv.init : EarlyInv (new : Algo C) := fun _ =>
  ⟨fun _ => rfl, .inl rfl, fun _ h => (by cases h), fun _ _ _ h => (by cases h)⟩

theorem CellStep.stored {u : Nat} {c : Option C} (h : CellStep s s') (h0 : cell (s.thr u).pc = .inr c)
    (h1 : cell (s'.thr u).pc ≠ .inr c) : s'.centroids = c := by
  have no : ∀ {v : Nat} {x : Cell C}, cell (s.thr v).pc = x → x ≠ .inr c →
      (∀ w, w ≠ v → cell (s'.thr w).pc = cell (s.thr w).pc) → s'.centroids = c := fun {v x} hx hn hv => by
    by_cases e : u = v
    · subst e; exact absurd (hx.symm.trans h0) hn
    · exact absurd ((hv u e).trans h0) h1
  cases h with
  | still hc hi hl hp => exact absurd ((hp u).trans h0) h1
  | initSave v x g0 g1 hv hc hi hl =>
    by_cases e : u = v
    · subst e; rw [h0] at g0; cases g0; exact hc
    · exact absurd ((hv u e).trans h0) h1
  | start v g0 g1 hv => exact no g0 (by rintro ⟨⟩) hv
  | initRet v x e g0 g1 hv => exact no g0 (by rintro ⟨⟩) hv
  | iterCall v x g0 g1 hv => exact no g0 (by rintro ⟨⟩) hv
  | iterOk v x g0 g1 hv => exact no g0 (by rintro ⟨⟩) hv
  | iterEnd v x he g0 g1 hv => exact no g0 (by rintro ⟨⟩) hv
  | save v x g0 g1 hv => exact no g0 (by rintro ⟨⟩) hv

theorem CellStep.none (h : CellStep s s') (hI : SrcInv s) (hF : Filled s.log) (hn : s'.centroids = none) :
    s.centroids = none := by
  cases h with
  | initSave v x g0 g1 hv hc hi hl =>
    obtain ⟨e, he⟩ := hI.inr v x g0
    rw [hn] at hc; subst hc
    exact absurd he (hF e)
  | save v x g0 g1 hv hc => rw [hn] at hc; cases hc
  | still hc => rw [← hc, hn]
  | start v g0 g1 hv hc => rw [← hc, hn]
  | initRet v x e g0 g1 hv hc => rw [← hc, hn]
  | iterCall v x g0 g1 hv hc => rw [← hc, hn]
  | iterOk v x g0 g1 hv hc => rw [← hc, hn]
  | iterEnd v x he g0 g1 hv hc => rw [← hc, hn]

theorem EarlyInv.step (hI : EarlyInv s) (hL : LockInv s) (hS : SrcInv s) (hF : Filled s.log)
    (hs : Step conf s s') (hc : CellStep s s') : EarlyInv s' := fun hn => by
  obtain ⟨he, hv, hset, hit⟩ := hI (hc.none hS hF hn)
  have hno : ∀ {t : Nat} {p : PC C}, (s.thr t).pc = p → early p = true := fun h => h ▸ he _
  have nv : ∀ {x : ClustStatus}, s.status.value = x → x ≠ .created → x ≠ .initializing → False :=
    fun h h1 h2 => by
      rcases hv with hv | hv
      · exact h1 (h.symm.trans hv)
      · exact h2 (h.symm.trans hv)
  refine ⟨fun u => ?_, ?_⟩
  · rcases hs.edge hL u with h | h
    · dsimp only at h; rw [h]; exact he u
    · dsimp only at h
      refine early_edge hv he (he u) h fun k c e hp => ?_
      rw [hp] at h
      have h8 : (s'.thr u).pc = .in8 k e := by
        generalize (s'.thr u).pc = q at h
        cases h; rfl
      have hst := hc.stored (u := u) (c := c) (by rw [hp]; rfl) (by rw [h8]; rintro ⟨⟩)
      obtain ⟨x, hx⟩ := hS.inr u c (by rw [hp]; rfl)
      rw [hn] at hst; subst hst
      exact hF x hx
  · rcases hs.log with ⟨e, h⟩ | ⟨e, hl, hst, hf⟩
    · rw [e, h]; exact ⟨hv, hset, hit⟩
    · cases e
      case set st =>
        have hst : st.value = .initializing := by
          obtain ⟨-, hf⟩ := hf
          rcases hf with ⟨t, k, -, rfl⟩ | ⟨t, k, hp, -⟩ | ⟨t, k, e, hp, -⟩ | ⟨-, hr, -⟩ | ⟨-, t, hp | hp⟩ |
            ⟨-, t, hp, -⟩ | ⟨-, t, e, hp | hp, -⟩ | ⟨t, j, k, hp, -⟩
          · rfl
          · cases hno hp
          · cases hno hp
          · exact absurd (nv hr (by rintro ⟨⟩) (by rintro ⟨⟩)) id
          all_goals cases hno hp
        refine ⟨.inr (by rw [hf.1]; exact hst), fun x hx => ?_, fun r st c h => ?_⟩
        · rw [hl] at hx
          rcases List.mem_cons.1 hx with h | h
          · cases h; exact hst
          · exact hset x h
        · rw [hl] at h
          rcases List.mem_cons.1 h with h | h
          · cases h
          · exact hit _ _ _ h
      case iterCall r st c => cases hno hf.1
      all_goals
        rw [hl, hst rfl]
        refine ⟨hv, fun x hx => ?_, fun r st c h => ?_⟩
        · rcases List.mem_cons.1 hx with h | h
          · cases h
          · exact hset x h
        · rcases List.mem_cons.1 h with h | h
          · cases h
          · exact hit _ _ _ h

theorem filled_of_cons {e : Event C} {l : List (Event C)} (h : Filled (e :: l)) : Filled l :=
  fun x hx => h x (List.mem_cons_of_mem _ hx)

theorem Reachable.early (h : Reachable conf s) (hF : Filled s.log) : EarlyInv s := by
  have : ((LockInv s ∧ StInv s ∧ (s.status.value = .created → s.iterations = 0)) ∧ SrcInv s) ∧
      (Filled s.log → EarlyInv s) :=
    h.induction (P := fun s => ((LockInv s ∧ StInv s ∧ (s.status.value = .created → s.iterations = 0)) ∧
        SrcInv s) ∧ (Filled s.log → EarlyInv s))
      ⟨⟨⟨LockInv.init, StInv.init, fun _ => rfl⟩, SrcInv.init⟩, fun _ => EarlyInv.init⟩
      (fun {s s'} hI hs => ⟨⟨⟨hI.1.1.1.step hs, hI.1.1.2.1.step hI.1.1.1 hs,
        created_step hI.1.1.1 hI.1.1.2.1 hI.1.1.2.2 hs⟩,
        hI.1.2.step hs (hs.cell hI.1.1.1 hI.1.1.2.2)⟩, fun hF => by
          have hF0 : Filled s.log := by
            rcases hs.log with ⟨e, _⟩ | ⟨e, hl, _⟩
            · rw [e] at hF; exact hF
            · rw [hl] at hF; exact filled_of_cons hF
          exact (hI.2 hF0).step hI.1.1.1 hI.1.2 hF0 hs (hs.cell hI.1.1.1 hI.1.1.2.2)⟩)
  exact this.2 hF

/-! ## The state in which an event was recorded -/

theorem exec_went : ∀ (as : List (Act C)) (s : Algo C), Reachable conf s →
    (∀ l1 e l2, s.log = l1 ++ e :: l2 → ∃ s0 s1 : Algo C, Reachable conf s0 ∧ s0.log = l2 ∧
      Step conf s0 s1 ∧ s1.log = e :: l2) → exec conf s as = some s' →
    ∀ l1 e l2, s'.log = l1 ++ e :: l2 → ∃ s0 s1 : Algo C, Reachable conf s0 ∧ s0.log = l2 ∧
      Step conf s0 s1 ∧ s1.log = e :: l2 := by
  intro as
  induction as with
  | nil => intro s _ hI he; cases he; exact hI
  | cons a as ih =>
    intro s hR hI he
    simp only [exec] at he
    cases hn : s.next conf a with
    | none => rw [hn] at he; cases he
    | some s1 =>
      rw [hn] at he
      refine ih s1 (hR.next hn) ?_ he
      intro l1 e l2 hl
      have hst : Step conf s s1 := by
        cases a with
        | client => cases hn; exact Step.client
        | act t c => exact Step.of_step hn
      rcases hst.log with ⟨h1, _⟩ | ⟨e', h1, _⟩
      · exact hI l1 e l2 (h1 ▸ hl)
      · cases l1 with
        | nil =>
          rw [h1] at hl
          cases hl
          exact ⟨s, s1, hR, rfl, hst, h1⟩
        | cons x l1 =>
          rw [h1] at hl
          simp only [List.cons_append, List.cons.injEq] at hl
          exact hI l1 e l2 hl.2

/-- Every recorded event was recorded by an action of the execution. -/
theorem Reachable.past (h : Reachable conf s) {l1 l2 : List (Event C)} {e : Event C}
    (hl : s.log = l1 ++ e :: l2) : ∃ s0 s1 : Algo C, Reachable conf s0 ∧ s0.log = l2 ∧
      Step conf s0 s1 ∧ s1.log = e :: l2 := by
  obtain ⟨as, he⟩ := h
  refine exec_went as _ ⟨[], rfl⟩ ?_ he l1 e l2 hl
  intro l1 e l2 h
  cases l1 <;> cases h

theorem works_keeps {I : C → Prop} {R : C → C → Prop} {Q : C → Prop} (hI : ∀ c, I c → Q c)
    (hR : ∀ c c', R c c' → Q c → Q c') : ∀ {l : List (Event C)}, Works I R l → Keeps Q l := by
  intro l
  induction l with
  | nil => intro _; trivial
  | cons e l ih =>
    intro h
    cases e
    case initRet c x => exact ⟨fun x hx => hI x (h.1 x hx), ih h.2⟩
    case iterOk r c =>
      obtain ⟨⟨x, hx, hr⟩, h2⟩ := h
      exact ⟨fun hq => hR x c hr (hq x hx), ih h2⟩
    all_goals exact ih h

end Algo
end Distclus
