import Verif.Model.Typed
import Verif.Props.InitPanic
import Verif.Props.StreamPanic
/-!
# C154: an element of a type the space does not expect

Model: `Verif/Model/Typed.lean`, on the panicking models of C124, C145, C149 and C150.
-/
namespace Distclus
open Spec PSpace

theorem typed_alien {E F : Type} (sp : PSpace E F) (x : Option E) :
    (typedP sp).dist none x = none ∧ (typedP sp).dist x none = none ∧ (typedP sp).copy none = none := by
  cases x <;> exact ⟨rfl, rfl, rfl⟩

/-- **C154 (operations).** Every operation of a space panics on an element of a wrong type, whatever the other one. -/
theorem C154_assert {E F : Type} (sp : PSpace E F) (x : Option E) (w v : Int) :
    (typedP sp).dist none x = none ∧ (typedP sp).dist x none = none ∧ (typedP sp).combine none w x v = none ∧
    (typedP sp).combine x w none v = none ∧ (typedP sp).copy none = none := by
  cases x <;> exact ⟨rfl, rfl, rfl, rfl, rfl⟩

/-- **C154 (right types).** On elements of the right type nothing changes: what is known of a space whose operations do
not panic (`Embeds`), or do not panic on some elements (`SafeOn`), holds. -/
theorem C154_right {E E' F : Type} {sp : PSpace E F} :
    (∀ {space : Space E' F} {φ : E' → E}, Embeds sp space φ → Embeds (typedP sp) space fun e => some (φ e)) ∧
    (∀ {G : E → Prop}, SafeOn sp G → SafeOn (typedP sp) fun o => ∃ e, o = some e ∧ G e) := by
  refine ⟨fun h => ⟨h.dist, fun a w b v => ?_, fun a => ?_⟩, fun h => ⟨?_, ?_, ?_⟩⟩
  · show (sp.combine _ w _ v).map some = _
    rw [h.combine]; rfl
  · show (sp.copy _).map some = _
    rw [h.copy]; rfl
  · rintro a b ⟨a, rfl, ha⟩ ⟨b, rfl, hb⟩
    exact h.dist ha hb
  · rintro a b w v ⟨a, rfl, ha⟩ ⟨b, rfl, hb⟩ hw hv
    obtain ⟨r, h1, h2⟩ := h.combine ha hb hw hv
    exact ⟨some r, by show (sp.combine a w b v).map some = _; rw [h1]; rfl, r, rfl, h2⟩
  · rintro a ⟨a, rfl, ha⟩
    obtain ⟨r, h1, h2⟩ := h.copy ha
    exact ⟨some r, by show (sp.copy a).map some = _; rw [h1]; rfl, r, rfl, h2⟩

section
variable {E F : Type} [Zero F] [One F] [Neg F] [LT F] [DecidableLT F]

/-- A wrong element, or a wrong centroid. -/
theorem nearest_alien (sp : PSpace E F) (c : List (Option E)) (e : Option E) (h : (e = none ∧ c ≠ []) ∨ none ∈ c) :
    nearestP (typedP sp) c e = none := by
  refine (nearestLoop_total e c _ _ _).2 ?_
  rcases h with ⟨rfl, hc⟩ | hn
  · obtain ⟨x, hx⟩ := List.exists_mem_of_ne_nil c hc
    exact ⟨x, hx, (typed_alien sp x).1⟩
  · exact ⟨none, hn, (typed_alien sp e).2.1⟩

/-- **C154 (Predict).** `Predict` of an element of a wrong type panics in the client as soon as there is a centroid; so
does `Predict` of any element if a centroid is of a wrong type. Without centroid it returns no centroid, as for any
element. -/
theorem C154_predict (sp : PSpace E F) (c : List (Option E)) (e : Option E) :
    (((e = none ∧ c ≠ []) ∨ none ∈ c) → assignP (typedP sp) c e = none) ∧
    assignP (typedP sp) [] e = some (none, -1, -1) := by
  refine ⟨fun h => ?_, ?_⟩
  · unfold assignP
    rw [nearest_alien sp c e h]
  · simp [assignP, nearestP, nearestLoopP]

theorem reduceLoop_alien (sp : PSpace E F) (c : List (Option E)) : ∀ (es : List (Option E))
    (st : List (Option (Option E)) × List Int), (none ∈ es ∨ (none ∈ c ∧ es ≠ [])) →
    reduceLoopP (typedP sp) c es st = none
  | [], st, h => by rcases h with h | ⟨_, h⟩ <;> simp at h
  | e :: es, st, h => by
    unfold reduceLoopP
    by_cases hb : (e = none ∧ c ≠ []) ∨ none ∈ c
    · rw [(C154_predict sp c e).1 hb]
    · rw [not_or, not_and_or] at hb
      obtain ⟨hb, hnc⟩ := hb
      have he : none ∈ e :: es := h.resolve_right fun h => hnc h.1
      cases hc : c with
      | nil =>
        rw [(C154_predict sp [] e).2]
        simp [dbaStepP, idx?]
      | cons x c' =>
        have hne : e ≠ none := hb.resolve_right (by rw [hc]; simp)
        have hes : none ∈ es := by
          rcases List.mem_cons.1 he with h | h
          · exact absurd h.symm hne
          · exact h
        rw [← hc]
        cases assignP (typedP sp) c e with
        | none => rfl
        | some r =>
          obtain ⟨_, ix, _⟩ := r
          dsimp only
          cases dbaStepP (typedP sp) st ix e with
          | none => rfl
          | some st' => exact reduceLoop_alien sp c es st' (.inl hes)

theorem par_alien {A B : Type} (P : List A → Prop) (hP : ∀ a b, P (a ++ b) → P a ∨ P b) (h0 : ¬ P [])
    (f : List A → Option B) (hf : ∀ l, P l → f l = none) (data : List A) (hd : P data) {d : Int} (h1 : 1 ≤ d) :
    (parP data.length d fun k => f (slice data k.start k.stop)) = .crash := by
  obtain ⟨chunks, hp⟩ : ∃ chunks, par data.length d = some chunks := ⟨_, par_eq (by omega)⟩
  have hflat : ∀ ls : List (List A), P ls.flatten → ∃ l ∈ ls, P l := by
    intro ls
    induction ls with
    | nil => intro h; exact (h0 h).elim
    | cons l ls ih =>
      intro h
      rw [List.flatten_cons] at h
      rcases hP _ _ h with h | h
      · exact ⟨l, List.mem_cons_self, h⟩
      · obtain ⟨l', h1, h2⟩ := ih h
        exact ⟨l', List.mem_cons_of_mem _ h1, h2⟩
  have hs := par_slices data hp
  rw [← hs, List.flatMap_def] at hd
  obtain ⟨l, hl, hpl⟩ := hflat _ hd
  obtain ⟨k, hk, rfl⟩ := List.mem_map.1 hl
  have : allSome (chunks.map fun k => f (slice data k.start k.stop)) = none :=
    (allSome_panics _).2 (List.mem_map.2 ⟨k, hk, hf _ hpl⟩)
  simp only [parP, hp, this]

/-- **C154 (k-means).** With an element of a wrong type among its data, or among its centroids if there are data, an
iteration of k-means panics if it is sequential (which ends the run) and ends the process if it is parallel. -/
theorem C154_kmeans (sp : PSpace E F) (c data : List (Option E)) (h : none ∈ data ∨ (none ∈ c ∧ data ≠ [])) :
    KStrategy.seq.iterateP (typedP sp) c data = .panic ∧
    ∀ d, 1 ≤ d → (KStrategy.par d).iterateP (typedP sp) c data = .crash := by
  constructor
  · unfold KStrategy.iterateP reduceDBAP
    dsimp only
    rw [reduceLoop_alien sp c data _ h]
  · intro d hd
    unfold KStrategy.iterateP
    dsimp only
    rw [par_alien (fun l => none ∈ l ∨ (none ∈ c ∧ l ≠ [])) ?_ (by simp) (fun l => reduceDBAP (typedP sp) c l)
      (fun l hl => reduceLoop_alien sp c l _ hl) data h hd]
    intro a b hab
    rcases hab with hab | ⟨h1, h2⟩
    · rcases List.mem_append.1 hab with h | h
      · exact .inl (.inl h)
      · exact .inr (.inl h)
    · cases a with
      | nil => exact .inr (.inr ⟨h1, h2⟩)
      | cons x a => exact .inl (.inr ⟨h1, by simp⟩)

/-! ### The initialisation -/

/-- **C154 (GivenInitializer).** It panics if one of the first elements is of a wrong type, and does not look at the
others. -/
theorem C154_given (sp : PSpace E F) (hcopy : ∀ e, (sp.copy e).isSome) (k : Int) (elemts : List (Option E)) (hk : 1 ≤ k)
    (hlen : k ≤ elemts.length) :
    (none ∈ elemts.take k.toNat → givenInitializerP k elemts (typedP sp) = .panic) ∧
    (none ∉ elemts.take k.toNat → ∃ c, givenInitializerP k elemts (typedP sp) = .ok (some c) ∧ none ∉ c) := by
  have hcheck : initCheck k elemts = true := by
    unfold initCheck; rw [if_neg (by omega), if_neg (by omega)]
  have loop : ∀ (n : Nat) (es : List (Option E)), n ≤ es.length →
      (none ∈ es.take n → givenLoopP (typedP sp) n es = none) ∧
      (none ∉ es.take n → ∃ c, givenLoopP (typedP sp) n es = some c ∧ none ∉ c) := by
    intro n
    induction n with
    | zero => intro es _; exact ⟨by simp, fun _ => ⟨[], rfl, by simp⟩⟩
    | succ n ih =>
      intro es hn
      cases es with
      | nil => simp at hn
      | cons e es =>
        obtain ⟨i1, i2⟩ := ih es (by simpa using hn)
        rw [List.take_succ_cons]
        unfold givenLoopP
        cases e with
        | none => exact ⟨fun _ => by rw [(typed_alien sp none).2.2], fun h => absurd List.mem_cons_self h⟩
        | some e =>
          obtain ⟨e', he⟩ := Option.isSome_iff_exists.1 (hcopy e)
          have hc : (typedP sp).copy (some e) = some (some e') := by
            show (sp.copy e).map some = _
            rw [he]; rfl
          rw [hc]
          dsimp only
          refine ⟨fun h => ?_, fun h => ?_⟩
          · rw [i1 (by simpa using h)]
          · obtain ⟨c, h1, h2⟩ := i2 (by simpa using h)
            rw [h1]
            exact ⟨some e' :: c, rfl, by simpa using h2⟩
  obtain ⟨l1, l2⟩ := loop k.toNat elemts (by omega)
  unfold givenInitializerP
  rw [hcheck]
  refine ⟨fun h => by rw [if_pos rfl, l1 h], fun h => ?_⟩
  obtain ⟨c, h1, h2⟩ := l2 h
  exact ⟨c, by rw [if_pos rfl, h1], h2⟩

theorem randLoop_copies {sp : PSpace E F} (P : E → Prop) (elemts : List E) (k : Nat) :
    ∀ (draws chosen : List Nat) (acc : List E), (∀ x ∈ acc, P x) → acc.length ≤ k →
      (∀ e ∈ elemts, ∀ x, sp.copy e = some x → P x) →
      (∀ c, randLoopP sp elemts k draws chosen acc = some (some c) → c.length = k ∧ ∀ x ∈ c, P x) ∧
      (randLoopP sp elemts k draws chosen acc = some none →
        ∃ d ∈ draws, elemts[d]? = none ∨ ∃ e, elemts[d]? = some e ∧ sp.copy e = none)
  | [], chosen, acc, ha, hl, hp => by
    unfold randLoopP
    split
    · exact ⟨fun c h => (nomatch h), fun h => (nomatch h)⟩
    · refine ⟨fun c h => ?_, fun h => nomatch h⟩
      cases h
      exact ⟨by omega, ha⟩
  | d :: ds, chosen, acc, ha, hl, hp => by
    have lift : ∀ {A : Prop}, (A → ∃ d' ∈ ds, elemts[d']? = none ∨ ∃ e, elemts[d']? = some e ∧ sp.copy e = none) →
        A → ∃ d' ∈ d :: ds, elemts[d']? = none ∨ ∃ e, elemts[d']? = some e ∧ sp.copy e = none := by
      intro A h hA
      obtain ⟨d', h1, h2⟩ := h hA
      exact ⟨d', List.mem_cons_of_mem _ h1, h2⟩
    unfold randLoopP
    split
    · rename_i hlt
      split
      · obtain ⟨h1, h2⟩ := randLoop_copies P elemts k ds chosen acc ha hl hp
        exact ⟨h1, lift h2⟩
      · cases he : elemts[d]? with
        | none => exact ⟨fun c h => (by simp at h), fun _ => ⟨d, List.mem_cons_self, .inl he⟩⟩
        | some e =>
          dsimp only
          cases hc : sp.copy e with
          | none => exact ⟨fun c h => (by simp at h), fun _ => ⟨d, List.mem_cons_self, .inr ⟨e, he, hc⟩⟩⟩
          | some x =>
            dsimp only
            obtain ⟨h1, h2⟩ := randLoop_copies P elemts k ds (d :: chosen) (acc ++ [x])
              (by
                intro y hy
                rcases List.mem_append.1 hy with hy | hy
                · exact ha y hy
                · rw [List.mem_singleton.1 hy]; exact hp e (List.mem_of_getElem? he) x hc)
              (by rw [List.length_append, List.length_singleton]; omega) hp
            exact ⟨h1, lift h2⟩
    · refine ⟨fun c h => ?_, fun h => nomatch h⟩
      cases h
      exact ⟨by omega, ha⟩

/-- What `RandInitializer` returns is made of copies, and it panics only on an element whose copy panics. -/
theorem rand_copies {sp : PSpace E F} (P : E → Prop) (k : Int) (hk : 0 ≤ k) (elemts : List E)
    (hp : ∀ e ∈ elemts, ∀ x, sp.copy e = some x → P x) (draws : List Nat) (hd : ∀ d ∈ draws, d < elemts.length) :
    (∀ c, randInitializerP k elemts sp draws = some (.ok (some c)) → (c.length : Int) = k ∧ ∀ x ∈ c, P x) ∧
    (randInitializerP k elemts sp draws = some .panic → ∃ d ∈ draws, ∃ e, elemts[d]? = some e ∧ sp.copy e = none) ∧
    randInitializerP k elemts sp draws ≠ some .crash := by
  obtain ⟨h1, h2⟩ := randLoop_copies (sp := sp) P elemts k.toNat draws [] [] (by simp) (by simp) hp
  unfold randInitializerP
  rw [if_neg (by omega)]
  split
  · cases hr : randLoopP sp elemts k.toNat draws [] [] with
    | none => exact ⟨fun c h => (nomatch h), fun h => (nomatch h), fun h => (nomatch h)⟩
    | some o =>
      cases o with
      | none =>
        refine ⟨fun c h => (by simp at h), fun _ => ?_, by simp⟩
        obtain ⟨d, hdm, h | h⟩ := h2 hr
        · rw [List.getElem?_eq_getElem (hd d hdm)] at h; cases h
        · exact ⟨d, hdm, h⟩
      | some c =>
        refine ⟨fun c' h => ?_, fun h => (by simp at h), by simp⟩
        simp only [Option.some.injEq, Outcome.ok.injEq] at h
        subst h
        obtain ⟨g1, g2⟩ := h1 c hr
        exact ⟨by omega, g2⟩
  · exact ⟨fun c h => (by simp at h), fun h => (by simp at h), by simp⟩

/-- **C150 (RandInitializer).** It does not look at the sizes: it never panics, and its centroids have sizes of
elements. -/
theorem C150_rand {sp : PSpace E F} {size : E → Nat} (hz : Sized sp size) (k : Int) (hk : 0 ≤ k) (elemts : List E)
    (draws : List Nat) (hd : ∀ d ∈ draws, d < elemts.length) :
    randInitializerP k elemts sp draws ≠ some .panic ∧ randInitializerP k elemts sp draws ≠ some .crash ∧
    ∀ c, randInitializerP k elemts sp draws = some (.ok (some c)) →
      (c.length : Int) = k ∧ ∀ x ∈ c, ∃ e ∈ elemts, size x = size e := by
  obtain ⟨h1, h2, h3⟩ := rand_copies (sp := sp) (fun x => ∃ e ∈ elemts, size x = size e) k hk elemts (by
    intro e he x hx
    obtain ⟨b, g1, g2⟩ := hz.copy e
    rw [g1] at hx
    cases hx
    exact ⟨e, he, g2⟩) draws hd
  refine ⟨fun h => ?_, h3, h1⟩
  obtain ⟨d, _, e, _, hc⟩ := h2 h
  obtain ⟨b, g1, _⟩ := hz.copy e
  rw [g1] at hc
  cases hc

/-- **C154 (RandInitializer).** It returns no element of a wrong type, and never ends the process. It panics only if it
draws an element of a wrong type, and does if the first one drawn is. -/
theorem C154_rand (sp : PSpace E F) (hcopy : ∀ e, (sp.copy e).isSome) (k : Int) (hk : 0 ≤ k) (elemts : List (Option E))
    (draws : List Nat) (hd : ∀ d ∈ draws, d < elemts.length) :
    (∀ c, randInitializerP k elemts (typedP sp) draws = some (.ok (some c)) → (c.length : Int) = k ∧ none ∉ c) ∧
    (randInitializerP k elemts (typedP sp) draws = some .panic → ∃ d ∈ draws, elemts[d]? = some none) ∧
    randInitializerP k elemts (typedP sp) draws ≠ some .crash ∧
    (1 ≤ k → k ≤ elemts.length → ∀ d ds, draws = d :: ds → elemts[d]? = some none →
      randInitializerP k elemts (typedP sp) draws = some .panic) := by
  obtain ⟨h1, h2, h3⟩ := rand_copies (sp := typedP sp) (fun x => x ≠ none) k hk elemts (by
    intro e _ x hx
    cases e with
    | none => cases hx
    | some e =>
      obtain ⟨e', he⟩ := Option.isSome_iff_exists.1 (hcopy e)
      have hx' : (sp.copy e).map some = some x := hx
      rw [he] at hx'
      cases hx'
      simp) draws hd
  refine ⟨fun c h => ⟨(h1 c h).1, fun hn => (h1 c h).2 none hn rfl⟩, fun h => ?_, h3, ?_⟩
  · obtain ⟨d, hdm, e, he, hc⟩ := h2 h
    cases e with
    | none => exact ⟨d, hdm, he⟩
    | some e =>
      obtain ⟨e', he'⟩ := Option.isSome_iff_exists.1 (hcopy e)
      have hc' : (sp.copy e).map some = none := hc
      rw [he'] at hc'
      cases hc'
  · rintro h1 hlen d ds rfl he
    have hcheck : initCheck k elemts = true := by
      unfold initCheck; rw [if_neg (by omega), if_neg (by omega)]
    have : randLoopP (typedP sp) elemts k.toNat (d :: ds) [] [] = some none := by
      unfold randLoopP
      rw [if_pos (show ([] : List (Option E)).length < k.toNat by simp; omega)]
      simp [he, (typed_alien sp none).2.2]
    simp only [randInitializerP, if_neg (show ¬ k < 0 by omega), hcheck, if_true, this]

theorem randLoop_same {E' : Type} {sp : PSpace E F} {space : Space E' F} {φ : E' → E} (h : Embeds sp space φ)
    (elemts : List E') (k : Nat) : ∀ (draws chosen : List Nat) (acc : List E'),
    randLoopP sp (elemts.map φ) k draws chosen (acc.map φ) =
      (Distclus.randLoop space elemts k draws chosen acc).map (Option.map (List.map φ))
  | [], chosen, acc => by
    unfold randLoopP Distclus.randLoop
    rw [List.length_map]
    split <;> rfl
  | d :: ds, chosen, acc => by
    unfold randLoopP Distclus.randLoop
    rw [List.length_map]
    split
    · dsimp only
      split
      · exact randLoop_same h elemts k ds chosen acc
      · rw [List.getElem?_map]
        cases elemts[d]? with
        | none => rfl
        | some e =>
          simp only [Option.map_some, h.copy]
          have := randLoop_same h elemts k ds (d :: chosen) (acc ++ [space.copy e])
          rwa [List.map_append, List.map_cons, List.map_nil] at this
    · rfl

/-- **C154 (RandInitializer, right types).** On elements of the right type it is the one of C27: distinct positions,
for instance. -/
theorem C154_rand_same {E' : Type} {sp : PSpace E F} {space : Space E' F} {φ : E' → E} (h : Embeds sp space φ) (k : Int)
    (elemts : List E') (draws : List Nat) :
    randInitializerP k (elemts.map fun e => some (φ e)) (typedP sp) draws =
      (randInitializer k elemts space draws).map fun
        | .panic => .panic
        | .err => .ok none
        | .ok c => .ok (some (c.map fun e => some (φ e))) := by
  have hl := randLoop_same ((C154_right (E' := E')).1 h) elemts k.toNat draws [] []
  have hc : initCheck k (elemts.map fun e => some (φ e)) = initCheck k elemts := by simp [initCheck]
  unfold randInitializerP randInitializer
  rw [hc]
  rw [List.map_nil] at hl
  rw [hl]
  split
  · rfl
  · split
    · cases Distclus.randLoop space elemts k.toNat draws [] [] with
      | none => rfl
      | some o => cases o <;> rfl
    · rfl

section
variable [Add F] [Sub F] [Mul F] [BEq F]

/-- **C154 (PPInitializer).** With two centroids or more it ends the process as soon as one element is of a wrong type,
whatever is drawn; with one centroid it returns the element drawn, whatever its type. -/
theorem C154_pp (sp : PSpace E F) (k : Int) (elemts : List (Option E)) (hk : 1 ≤ k) (hlen : k ≤ elemts.length)
    {sysCPU : Int} (hcpu : 1 ≤ sysCPU) (first : Nat) (x : Option E) (hx : elemts[first]? = some x) (u : F) (us : List F) :
    (2 ≤ k → none ∈ elemts → ppInitializerP k elemts (typedP sp) sysCPU first (u :: us) = some .crash) ∧
    (k = 1 → ppInitializerP k elemts (typedP sp) sysCPU first (u :: us) = some (.ok (some [x]))) := by
  have hcheck : initCheck k elemts = true := by
    unfold initCheck; rw [if_neg (by omega), if_neg (by omega)]
  constructor
  · intro h2 hn
    obtain ⟨n, hn'⟩ : ∃ n, k.toNat - 1 = n + 1 := ⟨k.toNat - 2, by omega⟩
    have hcr : ppIterP (typedP sp) sysCPU [x] elemts u = .crash :=
      (ppIterP_cases (sp := typedP sp) [x] elemts u hcpu).1.2 ⟨none, hn, x, by simp, (typed_alien sp x).1⟩
    simp only [ppInitializerP, if_neg (show ¬ k < 0 by omega), hcheck, if_true, hx, hn', ppLoopP, hcr]
  · rintro rfl
    simp [ppInitializerP, hcheck, hx, ppLoopP]

end

/-! ### mcmc -/

section
variable [Add F] [GoMath F]

theorem lossLoop_alien (sp : PSpace E F) (c : List (Option E)) (norm : F) : ∀ (es : List (Option E))
    (st : List F × List Int), none ∈ es → lossLoopP (typedP sp) c norm es st = none
  | [], st, h => by simp at h
  | e :: es, st, h => by
    unfold lossLoopP
    cases hc : c with
    | nil => simp [nearestP, nearestLoopP, lossStep, idx?]
    | cons x c' =>
      rw [← hc]
      rcases List.mem_cons.1 h with h | h
      · rw [nearest_alien sp c e (.inl ⟨h.symm, by rw [hc]; simp⟩)]
      · cases nearestP (typedP sp) c e with
        | none => rfl
        | some r =>
          obtain ⟨l, m⟩ := r
          dsimp only
          cases lossStep st l (GoMath.pow m norm) with
          | none => rfl
          | some st' => exact lossLoop_alien sp c norm es st' h

/-- The losses. -/
theorem C154_loss (sp : PSpace E F) (c data : List (Option E)) (h : none ∈ data) (norm : F) :
    KStrategy.seq.lossP (typedP sp) c data norm = .panic ∧
    ∀ d, 1 ≤ d → (KStrategy.par d).lossP (typedP sp) c data norm = .crash := by
  constructor
  · unfold KStrategy.lossP reduceLossP
    dsimp only
    rw [lossLoop_alien sp c norm data _ h]
  · intro d hd
    unfold KStrategy.lossP
    dsimp only
    rw [par_alien (fun l => none ∈ l) (fun a b h => List.mem_append.1 h) (by simp)
      (fun l => reduceLossP (typedP sp) c l norm) (fun l hl => lossLoop_alien sp c norm l _ hl) data h hd]

variable [Sub F] [Mul F] [BEq F] [Div F] {D R : Type}

/-- **C154 (mcmc).** With an element of a wrong type among its data `Init` of mcmc returns no clustering: it panics, ends
the process or returns the error of the initializer; and an iteration never returns. -/
theorem C154_mcmc (sp : PSpace E F) (impl : McmcImpl (Option E) F) (p : McmcPParams D (Option E) F R)
    (hsp : p.space = typedP sp) (hsys : 1 ≤ p.sysCPU) (hcpu : 1 ≤ p.conf.numCPU) :
    (∀ d : D, none ∈ impl.buffer.apply.data → ∀ i c, impl.initP p d ≠ .ok (i, some c)) ∧
    (∀ c d, none ∈ impl.buffer.data → ∀ r, impl.iterateP p c d ≠ .ok r) := by
  constructor
  · intro d hn i c h
    unfold McmcImpl.initP at h
    dsimp only at h
    split at h
    · cases h
    · cases h
    · rename_i cents hcents
      have : ∀ l, mcmcLossP p cents impl.buffer.apply.data ≠ .ok l := by
        intro l hl
        unfold mcmcLossP at hl
        rw [hsp] at hl
        obtain ⟨l1, l2⟩ := C154_loss sp cents _ hn p.conf.norm
        split at hl
        · rw [l2 _ hcpu] at hl; cases hl
        · rw [l1] at hl; cases hl
      cases hl : mcmcLossP p cents impl.buffer.apply.data with
      | ok l => exact this l hl
      | panic => rw [hl] at h; cases h
      | crash => rw [hl] at h; cases h
  · intro c d hn r h
    have hprop : ∀ cur prop, impl.proposeP p cur c impl.buffer.data impl.buffer.data.length d ≠ .ok prop := by
      intro cur prop hp
      unfold McmcImpl.proposeP at hp
      cases hk : impl.getKCentersP p cur c impl.buffer.data d with
      | panic => rw [hk] at hp; cases hp
      | crash => rw [hk] at hp; cases hp
      | ok kc =>
        rw [hk] at hp
        simp only [Outcome.bind] at hp
        cases ha : alterP kc.2 d with
        | none => rw [ha] at hp; cases hp
        | some centers =>
          rw [ha, hsp] at hp
          simp only [Outcome.ofOption] at hp
          rw [(C154_kmeans sp centers impl.buffer.data (.inl hn)).2 _ hsys] at hp
          cases hp
    unfold McmcImpl.iterateP at h
    dsimp only at h
    unfold McmcImpl.doIterP at h
    cases hp : impl.proposeP p impl.current c impl.buffer.data impl.buffer.data.length d with
    | ok prop => exact hprop _ prop hp
    | panic => rw [hp] at h; cases h
    | crash => rw [hp] at h; cases h

end

/-! ### Streaming -/

section
variable [BEq F] [Div F] {R : Type}

/-- **C154 (streaming).** An iteration which takes an element of a wrong type panics, and the element is lost: nothing
else changes. So does every iteration which takes an element, whatever it is, if a centre is of a wrong type. -/
theorem C154_stream (sp : PSpace E F) (impl : StreamImpl (Option E) F R) (e : Option E) (q : List (Option E))
    (he : impl.c = e :: q) (t : F) (h : (e = none ∧ impl.clust ≠ []) ∨ none ∈ impl.clust) :
    impl.iterateP (typedP sp) t = ({ impl with c := q }, none) := by
  have ha := (C154_predict sp impl.clust e).1 h
  unfold StreamImpl.iterateP
  rw [he]
  dsimp only
  unfold StreamImpl.processP
  dsimp only
  rw [ha]

/-- **C154 (streaming, first element).** If the first element is of a wrong type, `Init` returns it as a clustering and
the algorithm is stopped for ever: whatever the calls of `Push` and `Iterate`, each iteration which takes an element
panics and the centres never change. -/
theorem C154_stream_first (sp : PSpace E F) : ∀ (ops : List (StreamOp (Option E) F)) (impl : StreamImpl (Option E) F R),
    none ∈ impl.clust → .init ∉ ops →
    (∃ q, (StreamImpl.runP (typedP sp) impl ops).1 = { impl with c := q }) ∧
    ∀ r ∈ (StreamImpl.runP (typedP sp) impl ops).2,
      r = none ∨ (∃ b, r = some (.push b)) ∨ r = some (.iterate none impl.maxDistance)
  | [], impl, _, _ => ⟨⟨impl.c, rfl⟩, by simp [StreamImpl.runP]⟩
  | op :: ops, impl, hx, hi => by
    have hstep : ∃ q r, impl.stepP (typedP sp) op = ({ impl with c := q }, r) ∧
        (r = none ∨ (∃ b, r = some (.push b)) ∨ r = some (.iterate none impl.maxDistance)) := by
      cases op with
      | init => exact (hi (by simp)).elim
      | push e =>
        simp only [StreamImpl.stepP, StreamImpl.push]
        split
        · exact ⟨impl.c ++ [e], _, rfl, .inr (.inl ⟨_, rfl⟩)⟩
        · exact ⟨impl.c, _, rfl, .inr (.inl ⟨_, rfl⟩)⟩
      | iterate t =>
        cases hc : impl.c with
        | nil =>
          refine ⟨[], _, ?_, .inr (.inr rfl)⟩
          simp only [StreamImpl.stepP, StreamImpl.iterateP, hc]
          rw [← hc]
        | cons e q =>
          refine ⟨q, none, ?_, .inl rfl⟩
          simp only [StreamImpl.stepP, C154_stream sp impl e q hc t (.inr hx)]
    obtain ⟨q, r, e1, e3⟩ := hstep
    obtain ⟨⟨q', h1⟩, h2⟩ := C154_stream_first sp ops { impl with c := q } hx (fun h => hi (List.mem_cons_of_mem _ h))
    unfold StreamImpl.runP
    rw [e1]
    dsimp only
    refine ⟨⟨q', h1⟩, fun r' hr' => ?_⟩
    rcases List.mem_cons.1 hr' with rfl | hr'
    · exact e3
    · exact h2 r' hr'

/-- **C154 (streaming, `Init`).** `Init` on an element of any type: no error. -/
theorem C154_stream_init (conf : StreamingConf F R) (es : List (Option E)) (impl : StreamImpl (Option E) F R)
    (h : StreamImpl.new conf (none :: es) = some impl) :
    impl.init.2 = some [none] ∧ none ∈ impl.init.1.clust ∧ impl.init.1.c = es := by
  unfold StreamImpl.new at h
  split at h
  · cases h
  · cases h
    unfold StreamImpl.init StreamImpl.addCenter StreamImpl.updateMaxDistance
    dsimp only
    split <;> simp

end
end

/-- A vector among strings, for instance: the euclidean space on two elements, one of a wrong type. -/
example : none ∈ [some [(1 : ℝ), 2], none] ∧
    KStrategy.seq.iterateP (typedP (euclidP (F := ℝ))) [some [0, 0]] [some [1, 2], none] = .panic ∧
    (∀ e, ((euclidP (F := ℝ)).copy e).isSome) :=
  ⟨by simp, (C154_kmeans euclidP _ _ (.inl (by simp))).1, fun _ => rfl⟩

end Distclus
