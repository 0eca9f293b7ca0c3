import Verif.Props.Progress
import Verif.Props.DeployedFeaturizers
/-
**C106** A featurizer that can be trained in C++ can be trained, saved and loaded through the C interface.
-/
namespace Feat.CApi
open FloatScalers
variable {σ ι τ O : Type}

/-! ### Free handles and addresses -/

/-- The handle in a reply. -/
def Reply.given : Reply O → Option Nat
  | .returned _ _ (some i) => some i
  | .returned _ (.handle i) none => some i
  | _ => none

/-- The handles that were given out. -/
def given (es : List (Request ι × Reply O)) : List Nat := es.filterMap fun e => e.2.given

theorem given_append (es fs : List (Request ι × Reply O)) : given (es ++ fs) = given es ++ given fs := by
  simp [given]

private theorem direct_none {F : Featurizer σ ι τ O} (c : Call ι) :
    (∀ e a, direct F none c = .fails e a → a = none) ∧ (∀ v a, direct F none c = .succeeds v a → a = none) ∧
    (∀ x a, direct F none c = .creates x a → a = none) := by
  refine ⟨?_, ?_, ?_⟩ <;> intro x a h <;> cases c <;> unfold direct at h <;> simp only [onEst, onXf] at h <;>
    (repeat' split at h) <;> first | contradiction | (injection h with _ h; exact h.symm)

private theorem live_step {F : Featurizer σ ι τ O} {m : Objects σ τ} {x : Request ι × Reply O} {j : Nat}
    (h : afterRequest F m x j ≠ none) : m j ≠ none ∨ x.2.given = some j := by
  by_cases hj : m j = none
  · right
    have hset : ∀ (k : Nat) (a : Option (Obj σ τ)), (m k = none → a = none) → (m.set k a) j = none := by
      intro k a ha
      unfold Objects.set
      split
      · rename_i hk
        exact ha (hk ▸ hj)
      · exact hj
    unfold afterRequest at h
    split at h
    · rename_i c _ _ i
      rcases hd : direct F (m c.handle) c with ⟨e, a⟩ | ⟨u, a⟩ | ⟨fresh, a⟩ | _
      · simp only [hd] at h
        by_cases hji : j = i
        · simp [Reply.given, hji]
        · simp only [Objects.set, if_neg hji] at h
          exact absurd (hset c.handle a (fun hm => by rw [hm] at hd; exact (direct_none c).1 _ _ hd)) h
      all_goals
        simp only [hd] at h
        exact absurd hj h
    · rename_i c _ v
      rcases hd : direct F (m c.handle) c with ⟨e, a⟩ | ⟨u, a⟩ | ⟨fresh, a⟩ | _
      · simp only [hd] at h
        exact absurd hj h
      · simp only [hd] at h
        exact absurd (hset c.handle a (fun hm => by rw [hm] at hd; exact (direct_none c).2.1 _ _ hd)) h
      · cases v with
        | handle i =>
          simp only [hd] at h
          by_cases hji : j = i
          · simp [Reply.given, hji]
          · simp only [Objects.set, if_neg hji] at h
            exact absurd (hset c.handle a (fun hm => by rw [hm] at hd; exact (direct_none c).2.2 _ _ hd)) h
        | _ =>
          simp only [hd] at h
          exact absurd hj h
      · simp only [hd] at h
        exact absurd hj h
    · exact absurd (hset _ none (fun _ => rfl)) h
    · exact absurd hj h
  · exact .inl hj

/-- Live handles were given out. -/
theorem live_given {F : Featurizer σ ι τ O} {es : List (Request ι × Reply O)} {w : World σ τ} (h : History F es w) {j : Nat}
    (hj : w.object j ≠ none) : j ∈ given es := by
  rw [C60_history h] at hj
  clear h
  have hgen : ∀ (es : List (Request ι × Reply O)) (m : Objects σ τ), es.foldl (afterRequest F) m j ≠ none →
      m j ≠ none ∨ j ∈ given es := by
    intro es
    induction es with
    | nil => intro m h; exact .inl h
    | cons x es ih =>
      intro m h
      rcases ih _ h with h | h
      · rcases live_step h with h | h
        · exact .inl h
        · right
          have hg : given (x :: es) = given [x] ++ given es := given_append [x] es
          rw [hg]
          exact List.mem_append_left _ (by simp [given, h])
      · right
        have hg : given (x :: es) = given [x] ++ given es := given_append [x] es
        rw [hg]
        exact List.mem_append_right _ h
  rcases hgen es _ hj with h | h
  · exact absurd rfl h
  · exact h

private theorem exists_fresh (l : List Nat) : ∃ d, 1 ≤ d ∧ d ≤ l.length + 1 ∧ d ∉ l := by
  by_contra hf
  push Not at hf
  have hsub : (List.range' 1 (l.length + 1)) ⊆ l := by
    intro d hd
    rw [List.mem_range'_1] at hd
    exact hf d hd.1 (by omega)
  have hlen := (List.subperm_of_subset List.nodup_range' hsub).length_le
  simp at hlen

/-- As long as fewer than 2^64 - 1 handles were given out, allocation can succeed. -/
theorem C106_luck {F : Featurizer σ ι τ O} {es : List (Request ι × Reply O)} {w : World σ τ} (h : History F es w)
    (hlen : (given es).length + 1 < 2 ^ 64) : ∃ l : Luck, l.Ok w ∧ l.Delivers w := by
  obtain ⟨d, h1, h2, h3⟩ := exists_fresh (given es)
  have hd : w.object d = none := by
    by_contra hf
    exact h3 (live_given h hf)
  obtain ⟨a, a1, -, a3⟩ := exists_fresh (w.heap.entries.map (·.1))
  obtain ⟨b, b1, -, b3⟩ := exists_fresh (a :: w.heap.entries.map (·.1))
  refine ⟨⟨a, [d], b, [d]⟩, ⟨by show a ≠ 0; omega, ?_, by show b ≠ 0; omega, ?_, ?_, ?_, ?_⟩, ⟨d, by simp, hd⟩, ⟨d, by simp, hd⟩⟩
  · exact (UMap.find?_eq_none _ _).2 a3
  · exact (UMap.find?_eq_none _ _).2 fun hx => b3 (List.mem_cons_of_mem _ hx)
  · show a ≠ b
    rintro rfl
    exact b3 List.mem_cons_self
  · intro x hx
    simp only [List.mem_singleton] at hx
    subst hx
    omega
  · intro x hx
    simp only [List.mem_singleton] at hx
    subst hx
    omega

/-! ### The whole training -/

/-- What a client sees from here on until training is complete. -/
private def Ahead (bs : List (List ι)) : Todo ι → List (Sight ι) → Prop
  | .ask rest, l => Loop bs rest l
  | .fit b rest, l => Loop bs (b :: rest) (.state .training :: l)
  | .dataCompleted, l => ∃ l', l = .dataCompleted :: l' ∧ Loop bs bs l'
  | .complete, l => l = []
  | .make, _ => False

private theorem ahead {bs : List (List ι)} {l : List (Sight ι)} {todo : Todo ι} (h : Doing bs l todo) (hn : bs ≠ []) :
    ∀ l', Ahead bs todo l' → Loop bs bs (l ++ l') := by
  induction h with
  | nothing h => exact absurd h hn
  | start _ => intro l' h; exact h
  | training _ ih => intro l' h; rw [List.append_assoc]; exact ih _ h
  | trained _ hs ih =>
    rintro l' rfl
    rw [List.append_assoc]
    exact ih _ (.done hs)
  | reset _ ih => intro l' h; rw [List.append_assoc]; exact ih _ (.reset h)
  | next _ hr hn ih => intro l' h; rw [List.append_assoc]; exact ih _ (.next hr hn h)
  | last _ hr ih =>
    rintro l' ⟨l', rfl, h⟩
    rw [List.append_assoc]
    exact ih _ (.last hr h)
  | again _ ih => intro l' h; rw [List.append_assoc]; exact ih _ ⟨_, rfl, h⟩
  | completed _ _ => intro l' h; exact h.elim

private theorem doing_none {bs : List (List ι)} (hb : bs = []) {l : List (Sight ι)} {todo : Todo ι} (h : Doing bs l todo) :
    (todo = .complete ∧ l = []) ∨ (todo = .make ∧ l = [.completed]) := by
  induction h with
  | nothing _ => exact .inl ⟨rfl, rfl⟩
  | start h => exact absurd hb h
  | completed _ ih =>
    rcases ih with ⟨-, rfl⟩ | ⟨h, -⟩
    · exact .inr ⟨rfl, rfl⟩
    · cases h
  | _ => rename_i ih; rcases ih with ⟨h, -⟩ | ⟨h, -⟩ <;> cases h

/-- A client that has only the transformer to make has trained with its batches. -/
theorem trains_of_doing {bs : List (List ι)} {l : List (Sight ι)} (h : Doing bs l .make) : TrainsWith bs l := by
  by_cases hb : bs = []
  · rcases doing_none hb h with ⟨h, -⟩ | ⟨-, rfl⟩
    · cases h
    · exact .empty hb
  · cases h with
    | completed h =>
      have := ahead h hb [] rfl
      rw [List.append_nil] at this
      exact .loop hb this

/-- **C106** A client alone with the process trains to the end. -/
theorem C106_trains {F : Featurizer σ ι τ O} {s : σ} {bs : List (List ι)} {n : Nat} {t : τ} {ez : Est σ} (hnew : F.new = .ok s)
    (ht : trainAndCreate F.hooks bs n (Est.new s) = some (.ok t, ez)) {es₀ : List (Request ι × Reply O)} {w₀ : World σ τ}
    (h₀ : History F es₀ w₀) (hlen : (given es₀).length + 2 < 2 ^ 64) :
    ∃ l₁ h w₁ es₁ w₂ l₂ k w₃, l₁.Ok w₀ ∧ serve F (.call (.createEstimator true) true) l₁ w₀ = (.returned true (.handle h) none, w₁) ∧
      Session F w₁ es₁ w₂ ∧ (∀ e ∈ es₁, e.1 ≠ .call (.destroyEstimator h) true) ∧ TrainsWith bs (sights h es₁) ∧ l₂.Ok w₂ ∧
      serve F (.call (.createTransformer h true) true) l₂ w₂ = (.returned true (.handle k) none, w₃) ∧
      w₃.object k = some (.xf t) ∧ given es₁ = [] := by
  obtain ⟨l₁, hl₁, hd₁⟩ := C106_luck h₀ (by omega)
  obtain ⟨h, w₁, hc, hgo⟩ := C106_progress hnew ht h₀ hl₁ hd₁
  have hist₁ := h₀.step hl₁ hc trivial
  have hreach : ∀ j : Nat, ∃ es₁ w₂ todo, Session F w₁ es₁ w₂ ∧ (∀ e ∈ es₁, e.1 ≠ .call (.destroyEstimator h) true) ∧
      Doing bs (sights h es₁) todo ∧ given es₁ = [] ∧ (todo = .make ∨ j ≤ (sights h es₁).length) := by
    intro j
    induction j with
    | zero =>
      by_cases hb : bs = []
      · exact ⟨[], w₁, .complete, .start, by simp, .nothing hb, rfl, .inr (Nat.zero_le _)⟩
      · exact ⟨[], w₁, .ask bs, .start, by simp, .start hb, rfl, .inr (Nat.zero_le _)⟩
    | succ j ih =>
      obtain ⟨es₁, w₂, todo, s₁, hd, hdo, hg, hj⟩ := ih
      by_cases hm : todo = .make
      · exact ⟨es₁, w₂, todo, s₁, hd, hdo, hg, .inl hm⟩
      · have hj : j ≤ (sights h es₁).length := hj.resolve_left hm
        obtain ⟨l, hl, hdel⟩ := C106_luck (s₁.history hist₁) (by
          rw [given_append, given_append, hg]
          simp [given, Reply.given] at hlen ⊢
          omega)
        obtain ⟨c, hby⟩ : ∃ c, todo.By h c := by
          cases todo
          · exact ⟨_, .ask⟩
          · exact ⟨_, .fitBuffer⟩
          · exact ⟨_, .dataCompleted⟩
          · exact ⟨_, .complete⟩
          · exact absurd rfl hm
        obtain ⟨v, w₃, hs, hr⟩ := (hgo s₁ hd hdo).2 hby hl hdel
        rcases hr with ⟨-, hv, sg, todo', hsg, hdo'⟩ | ⟨hx, -⟩
        · refine ⟨_, w₃, todo', s₁.step hl hs trivial, ?_, hdo', ?_, .inr ?_⟩
          · intro e he
            rcases List.mem_append.1 he with he | he
            · exact hd e he
            · rw [List.mem_singleton.1 he]
              cases hby <;> nofun
          · rw [given_append, hg]
            cases v <;> first | rfl | exact absurd rfl (hv _)
          · simp only [sights, List.filterMap_append, List.length_append] at hj ⊢
            have : (List.filterMap (sightOf h) [(Request.call c true, (Reply.returned true v none : Reply O))]).length = 1 := by
              simp [hsg]
            omega
        · exact absurd hx hm
  obtain ⟨es₁, w₂, todo, s₁, hd, hdo, hg, hm⟩ := hreach (3 * n + 3)
  have hmake : todo = .make := by
    rcases hm with hm | hm
    · exact hm
    · have := (hgo s₁ hd hdo).1
      omega
  subst hmake
  obtain ⟨l₂, hl₂, hdel₂⟩ := C106_luck (s₁.history hist₁) (by
    rw [given_append, given_append, hg]
    simp [given, Reply.given] at hlen ⊢
    omega)
  obtain ⟨v, w₃, hs, hr⟩ := (hgo s₁ hd hdo).2 .make hl₂ hdel₂
  rcases hr with ⟨hx, -⟩ | ⟨-, k, rfl, hk⟩
  · exact absurd rfl hx
  · exact ⟨l₁, h, w₁, es₁, w₂, l₂, k, w₃, hl₁, hc, s₁, hd, trains_of_doing hdo, hl₂, hs, hk, hg⟩

/-! ### Questions -/

/-- A function that is asked does not stop answering. -/
theorem asks {F : Featurizer σ ι τ O} {t : τ} (hrow : ∀ x, (∃ e, e ≠ .ub ∧ F.xf.exec t x = ⟨[], some e, t⟩) ∨ ∃ o, F.xf.exec t x = ⟨[o], none, t⟩)
    (hflush : F.xf.flush t = ⟨[], none, t⟩) {k : Nat} (qs : List (Ask ι)) :
    ∀ {es₀ : List (Request ι × Reply O)} {w₀ : World σ τ}, History F es₀ w₀ → w₀.object k = some (.xf t) →
      (given es₀).length + qs.length + 1 < 2 ^ 64 →
      ∃ es w, Session F w₀ es w ∧ (∀ e ∈ es, e.1 ≠ .call (.destroyTransformer k) true) ∧ questions k es = qs ∧
        w.object k = some (.xf t) ∧ (given es).length ≤ qs.length := by
  induction qs with
  | nil => intro es₀ w₀ h₀ hk _; exact ⟨[], w₀, .start, by simp, rfl, hk, by simp [given]⟩
  | cons q qs ih =>
    intro es₀ w₀ h₀ hk hlen
    simp only [List.length_cons] at hlen
    obtain ⟨l, hl, hd⟩ := C106_luck h₀ (by omega)
    obtain ⟨c, hq, hn, hcg, hh, hcase⟩ : ∃ c : Call ι, askedOf k (.call c true) = some q ∧ Request.call c true ≠ .call (.destroyTransformer k) true ∧
        c.givesOut = true ∧ c.handle = k ∧
        ((∃ v, direct F (some (.xf t)) c = .succeeds v (some (.xf t)) ∧ ∀ i, v ≠ .handle i) ∨ ∃ e, e ≠ .ub ∧ direct F (some (.xf t)) c = .fails e (some (.xf t))) := by
      cases q with
      | row x =>
        refine ⟨.transform k x true, by simp [askedOf], nofun, rfl, rfl, ?_⟩
        rcases hrow x with ⟨e, he, hx⟩ | ⟨o, hx⟩
        · exact .inr ⟨e, he, by simp [direct, onXf, executeOne, hx]⟩
        · exact .inl ⟨.item o, by simp [direct, onXf, executeOne, hx], nofun⟩
      | flush =>
        exact ⟨.flush k true, by simp [askedOf], nofun, rfl, rfl, .inl ⟨.items [], by simp [direct, onXf, flushAll, hflush], nofun⟩⟩
    have hcall := C60_call h₀ hl hd c hcg
    rw [hh, hk] at hcall
    rcases hs : serve F (.call c true) l w₀ with ⟨rep, w₁⟩
    rw [hs] at hcall
    obtain ⟨hb, ho, hg⟩ : rep.cameBack ∧ w₁.object k = some (.xf t) ∧ (given [((Request.call c true : Request ι), rep)]).length ≤ 1 := by
      rcases hcase with ⟨v, hv, hnv⟩ | ⟨e, he, hv⟩
      · rw [hv] at hcall
        obtain ⟨rfl, hobj⟩ := hcall
        refine ⟨trivial, by rw [hobj, if_pos rfl], ?_⟩
        simp only [given]
        exact (List.length_filterMap_le _ _).trans (by simp)
      · rw [hv] at hcall
        have : ∃ i, rep = .returned false .nothing (some i) ∧ i ≠ 0 ∧ w₀.object i = none ∧
            ∀ j, w₁.object j = if j = i then some (.message e) else if j = k then some (.xf t) else w₀.object j := by
          cases e <;> first | exact hcall | exact absurd rfl he
        obtain ⟨i, rfl, -, hi, hobj⟩ := this
        refine ⟨trivial, ?_, ?_⟩
        · rw [hobj, if_neg (fun hx => by rw [← hx, hk] at hi; cases hi), if_pos rfl]
        · simp only [given]
          exact (List.length_filterMap_le _ _).trans (by simp)
    obtain ⟨es, w, s, h1, h2, h3, h4⟩ := ih (h₀.step hl hs hb) ho (by
      rw [given_append, List.length_append]
      omega)
    refine ⟨[(.call c true, rep)] ++ es, w, session_append (Session.step .start hl hs hb) s, ?_, ?_, h3, ?_⟩
    · intro e he
      rcases List.mem_append.1 he with he | he
      · rw [List.mem_singleton.1 he]; exact hn
      · exact h1 e he
    · simp only [questions, List.filterMap_append] at h2 ⊢
      rw [h2]
      simp [hq]
    · rw [given_append, List.length_append, List.length_cons]
      omega

/-! ### Saving and loading -/

/-- **C106** A trained pipeline whose transformer can be archived is saved with success in any process where its handle lives, and
loaded from these bytes, with others behind them, with success in every other process, of either byte order; the handle stands for what
the archive is read as (the same transformer if it round-trips). -/
theorem C106_saves {σ : Nat → Type} {α : Type} {c : ArClass} {X : Xf c.Obj ι ι} {Y : Xf c.Obj ι O}
    {comps : (i : Nat) → Component (σ i) ι α} {n : Nat} {mk : AnnotationMaps α → Except Err c.Obj} {maps : AnnotationMaps α} {t t' : c.Obj}
    {host host' : Endian} {space space' : Nat} {place place' : List UInt8 → Nat} (htrip : Becomes c t t') :
    ∃ bytes : List UInt8, Writes (c.save t) bytes ∧
      (∀ {es : List (Request ι × Reply O)} {w : World (List (Elem (CompState α σ) ι c.Obj) × CompState α σ) (List (Option c.Obj))} {k : Nat}
        {l : Luck}, History (pipelineIn c X Y comps n mk maps host space place) es w →
        w.object k = some (.xf (List.replicate n none ++ [some t])) → l.Ok w → l.Delivers w →
        ∃ w', serve (pipelineIn c X Y comps n mk maps host space place) (.call (.save k true) true) l w
          = (.returned true (.bytes bytes) none, w')) ∧
      (∀ {es : List (Request ι × Reply O)} {v : World (List (Elem (CompState α σ) ι c.Obj) × CompState α σ) (List (Option c.Obj))}
        {behind : List UInt8} {l : Luck}, History (pipelineIn c X Y comps n mk maps host' space' place') es v →
        bytes ++ behind ≠ [] → Roomy space' (place' (bytes ++ behind)) (bytes ++ behind).length → l.Ok v → l.Delivers v →
        ∃ j v', serve (pipelineIn c X Y comps n mk maps host' space' place') (.call (.loadTransformer (some (bytes ++ behind)) true) true) l v
          = (.returned true (.handle j) none, v') ∧ v'.object j = some (.xf (List.replicate n none ++ [some t']))) := by
  obtain ⟨bytes, hw, hr⟩ := only_becomes n htrip
  have hsame : (onlyAr n c).save (List.replicate n none ++ [some t]) = c.save t := by
    simp only [onlyAr]
    rw [List.drop_append_of_le_length (by simp), List.drop_eq_nil_of_le (by simp), List.nil_append]
  refine ⟨bytes, by rw [← hsame]; exact hw, ?_, ?_⟩
  · intro es w k l hist hk hl hd
    have hcall := C60_call hist hl hd (.save k true) rfl
    rw [show (Call.save k true : Call ι).handle = k from rfl, hk] at hcall
    have hsv : (pipelineIn c X Y comps n mk maps host space place).save (List.replicate n none ++ [some t]) = .ok bytes :=
      save_of (onlyAr n c) host space _ bytes hw
    simp only [direct, onXf, if_true, hsv] at hcall
    rcases hs : serve (pipelineIn c X Y comps n mk maps host space place) (.call (.save k true) true) l w with ⟨rep, w'⟩
    rw [hs] at hcall
    obtain ⟨rfl, -⟩ := hcall
    exact ⟨w', rfl⟩
  · intro es v behind l hist hne hroom hl hd
    have hcall := C60_call hist hl hd (.loadTransformer (some (bytes ++ behind)) true) rfl
    rw [show (Call.loadTransformer (some (bytes ++ behind)) true : Call ι).handle = 0 from rfl] at hcall
    have hld : (pipelineIn c X Y comps n mk maps host' space' place').load (bytes ++ behind)
        = .ok (List.replicate n none ++ [some t']) := by
      have h1 := hr host' space' (place' (bytes ++ behind)) [] behind (by simpa using hroom)
      show apiLoad (onlyAr n c) host' space' place' (bytes ++ behind) = _
      rw [load_at _ _ _ _ _ hne]
      simp only [List.nil_append] at h1 ⊢
      rw [h1]
      rfl
    simp only [direct] at hcall
    rw [if_neg (by simp [hne]), hld] at hcall
    rcases hs : serve (pipelineIn c X Y comps n mk maps host' space' place') (.call (.loadTransformer (some (bytes ++ behind)) true) true) l v
      with ⟨rep, v'⟩
    rw [hs] at hcall
    obtain ⟨j, rfl, -, -, h4⟩ := hcall
    exact ⟨j, v', rfl, by rw [h4, if_pos rfl]⟩

/-- **C106** Likewise for a transformer that may change when it is saved and loaded. -/
theorem C106_deploys_reread {σ : Nat → Type} {α : Type} {c : ArClass} {X : Xf c.Obj ι ι} {f : c.Obj → ι → Except Err O}
    {comps : (i : Nat) → Component (σ i) ι α} {n : Nat} {mk : AnnotationMaps α → Except Err c.Obj} {maps : AnnotationMaps α} {t t' : c.Obj}
    {host host' : Endian} {space space' : Nat} {place place' : List UInt8 → Nat} {bs : List (List ι)}
    (hy : FeaturizerYields X comps n mk bs maps (.ok t)) (htrip : Becomes c t t') (hf : ∀ x, f t x ≠ .error .ub)
    (hf' : ∀ x, f t' x ≠ .error .ub)
    (behind : List UInt8) (hroom : ∀ bytes, Writes (c.save t) bytes → bytes ++ behind ≠ [] ∧
      Roomy space' (place' (bytes ++ behind)) (bytes ++ behind).length) (qs₁ qs₂ : List (Ask ι)) (h₁ : qs₁.length < 2 ^ 63) (h₂ : qs₂.length < 2 ^ 63) :
    ∃ as₁ as₂, Deployment (pipelineIn c X (Xf.ofFun f) comps n mk maps host space place)
      (pipelineIn c X (Xf.ofFun f) comps n mk maps host' space' place')
      (fun b => Roomy space' (place' b) b.length) bs qs₁ as₁ qs₂ as₂ := by
  obtain ⟨N, hN⟩ := hy
  obtain ⟨e, he⟩ := hN N (Nat.le_refl _)
  have hq : ∀ (t : c.Obj) (hf : ∀ x, f t x ≠ .error .ub) (hst : Endian) (sp : Nat) (pl : List UInt8 → Nat), 
      (∀ x, (∃ e, e ≠ Err.ub ∧ (pipelineIn c X (Xf.ofFun f) comps n mk maps hst sp pl).xf.exec (List.replicate n none ++ [some t]) x
          = ⟨[], some e, List.replicate n none ++ [some t]⟩) ∨
        ∃ o, (pipelineIn c X (Xf.ofFun f) comps n mk maps hst sp pl).xf.exec (List.replicate n none ++ [some t]) x
          = ⟨[o], none, List.replicate n none ++ [some t]⟩) ∧
      (pipelineIn c X (Xf.ofFun f) comps n mk maps hst sp pl).xf.flush (List.replicate n none ++ [some t])
        = ⟨[], none, List.replicate n none ++ [some t]⟩ := by
    intro t hf hst sp pl
    have hd : (List.replicate n none ++ [some t]).drop n = [some t] := by
      rw [List.drop_append_of_le_length (by simp), List.drop_eq_nil_of_le (by simp), List.nil_append]
    refine ⟨fun x => ?_, ?_⟩
    · show (∃ e, e ≠ Err.ub ∧ (onlyXf n (Xf.ofFun f)).exec (List.replicate n none ++ [some t]) x = _) ∨
        ∃ o, (onlyXf n (Xf.ofFun f)).exec (List.replicate n none ++ [some t]) x = _
      have hfx := hf x
      simp only [onlyXf, hd]
      rcases hfe : f t x with e | o
      · rw [hfe] at hfx
        exact .inl ⟨e, fun hx => hfx (by rw [hx]), by simp [Xf.ofFun, hfe]⟩
      · exact .inr ⟨o, by simp [Xf.ofFun, hfe]⟩
    · show (onlyXf n (Xf.ofFun f)).flush (List.replicate n none ++ [some t]) = _
      simp only [onlyXf, hd]
      rfl
  obtain ⟨l₁, h, w₁, es₁, w₂, l₂, k, w₃, hl₁, hc, s₁, hd₁, hs, hl₂, ht, hk, hg⟩ :=
    C106_trains (F := pipelineIn c X (Xf.ofFun f) comps n mk maps host space place) (s := (newFeaturizer comps n mk maps).inner)
      (bs := bs) (n := N) (t := List.replicate n none ++ [some t]) (ez := e) rfl he .start (by simp [given])
  have hist₁ := History.step .start hl₁ hc trivial
  have hist₃ := (s₁.history hist₁).step hl₂ ht trivial
  obtain ⟨es₂, w₄, s₂, hd₂, hq₂, hk₄, hg₂⟩ := asks (hq t hf host space place).1 (hq t hf host space place).2 qs₁ hist₃ hk (by
    rw [given_append, given_append, hg]
    simp [given, Reply.given]
    omega)
  obtain ⟨bytes, hwr, hsave, hload⟩ := C106_saves (X := X) (Y := Xf.ofFun f) (comps := comps) (n := n) (mk := mk) (maps := maps)
    (host := host) (host' := host') (space := space) (space' := space') (place := place) (place' := place') htrip
  obtain ⟨l₃, hl₃, hdel₃⟩ := C106_luck (s₂.history hist₃) (by
    rw [given_append, given_append, given_append, hg]
    simp [given, Reply.given] at hg₂ ⊢
    omega)
  obtain ⟨w₅, hsv⟩ := hsave (s₂.history hist₃) hk₄ hl₃ hdel₃
  obtain ⟨l₄, hl₄, hdel₄⟩ := C106_luck (F := pipelineIn c X (Xf.ofFun f) comps n mk maps host' space' place') .start (by simp [given])
  obtain ⟨j, v₁, hld, hj⟩ := hload (behind := behind) .start (hroom _ hwr).1 (hroom _ hwr).2 hl₄ hdel₄
  have hist' := History.step .start hl₄ hld trivial
  obtain ⟨fs₁, v₂, s₃, hd₃, hq₃, -, -⟩ := asks (hq t' hf' host' space' place').1 (hq t' hf' host' space' place').2 qs₂ hist' hj (by
    simp [given, Reply.given]
    omega)
  refine ⟨answers k es₂, answers j fs₁, ?_⟩
  rw [← hq₂, ← hq₃]
  exact .mk .start hl₁ hc s₁ hd₁ hs hl₂ ht s₂ hd₂ hl₃ hsv .start hl₄ (hroom _ hwr).2 hld s₃ hd₃

/-- **C106** What the C++ training yields can be deployed: there is a story as in C105, with any questions in both processes
and any bytes behind the archive, if its buffer is not empty and lies in the address space. -/
theorem C106_deploys {σ : Nat → Type} {α : Type} {c : ArClass} {X : Xf c.Obj ι ι} {f : c.Obj → ι → Except Err O}
    {comps : (i : Nat) → Component (σ i) ι α} {n : Nat} {mk : AnnotationMaps α → Except Err c.Obj} {maps : AnnotationMaps α} {t : c.Obj}
    {host host' : Endian} {space space' : Nat} {place place' : List UInt8 → Nat} {bs : List (List ι)}
    (hy : FeaturizerYields X comps n mk bs maps (.ok t)) (htrip : RoundTrips c t) (hf : ∀ x, f t x ≠ .error .ub)
    (behind : List UInt8) (hroom : ∀ bytes, Writes (c.save t) bytes → bytes ++ behind ≠ [] ∧
      Roomy space' (place' (bytes ++ behind)) (bytes ++ behind).length) (qs₁ qs₂ : List (Ask ι)) (h₁ : qs₁.length < 2 ^ 63) (h₂ : qs₂.length < 2 ^ 63) :
    ∃ as₁ as₂, Deployment (pipelineIn c X (Xf.ofFun f) comps n mk maps host space place)
      (pipelineIn c X (Xf.ofFun f) comps n mk maps host' space' place')
      (fun b => Roomy space' (place' b) b.length) bs qs₁ as₁ qs₂ as₂ :=
  C106_deploys_reread hy (trips_becomes htrip) hf hf behind hroom qs₁ qs₂ h₁ h₂

/-! ### Featurizers -/

theorem writes_unique {m : M Archive Unit} {a b : List UInt8} (ha : Writes m a) (hb : Writes m b) : a = b := by
  have h : ({ Archive.mkWriter .little 0 with buf := (Archive.mkWriter .little 0).buf ++ a } : Archive)
      = { Archive.mkWriter .little 0 with buf := (Archive.mkWriter .little 0).buf ++ b } :=
    (Prod.mk.inj ((ha _ rfl).symm.trans (hb _ rfl))).2
  exact List.append_cancel_left (congrArg Archive.buf h)

private theorem scaler_bytes {t : StandardScaler F64} {b : List UInt8} (h : Writes (scalerAr.save t) b) : b.length = 16 := by
  have h' : Writes (scalerAr.save t) (Codec.bytes (t.average, t.deviation)) :=
    Codec.writes (t.average, t.deviation) ⟨trivial, trivial⟩
  rw [writes_unique h h']
  rfl

/-- **C106** (standard scaler of `float` and `double`, with C72) If no training value is infinite or too small beside the others, and
the values are all the same or not too close to each other, then the scaler can be deployed; what it answers is C105. -/
theorem C106_standard_scaler {T : Type} [FloatArith.FloType T] [FloatArith.Lawful T] [FloatArith.Wider T FloatArith.F80] {N : Nat}
    (hT : FloatStats.Column T N) {withMean withStd : Bool} {X : Xf (StandardScaler F64) T T} {host host' : Endian}
    {space space' : Nat} {place place' : List UInt8 → Nat} {bs : List (List T)} (hne : bs ≠ []) (hb : NoEmptyBatch bs)
    (hlen : bs.flatten.length ≤ 2 ^ 60) (hinf : ∀ x ∈ bs.flatten, ¬ FloatText.IsInf x)
    (l : List ℚ) (hl : l = FloatNorms.numbers FloatNorms.floNumber bs.flatten)
    (hmod : ∀ q ∈ l, |q| ≤ 2 ^ 1020) (hl0 : l ≠ []) (hN : l.length ≤ N) (hnn : FloatNorms.NoneNegligible (l.map fun q => |q|))
    (hap : FloatStats.Apart l) (behind : List UInt8) (hroom : ∀ b : List UInt8, b.length = 16 + behind.length → Roomy space' (place' b) b.length)
    (qs₁ qs₂ : List (Ask T)) (h₁ : qs₁.length < 2 ^ 63) (h₂ : qs₂.length < 2 ^ 63) :
    ∃ as₁ as₂, Deployment (standardScalerIn (FloatStats.floStat T) withMean withStd X host space place)
      (standardScalerIn (FloatStats.floStat T) withMean withStd X host' space' place')
      (fun b => Roomy space' (place' b) b.length) bs qs₁ as₁ qs₂ as₂ := by
  have htake : bs.flatten.take (2 ^ 64 - 1) = bs.flatten := List.take_of_length_le (by omega)
  obtain ⟨r, hy, -, -, h1, h2, -⟩ := FloatStats.C72_float_partial hT withMean withStd 0 (2 ^ 64 - 1) (by decide) bs hne hb [[]] (by simp) rfl rfl
    (by rw [htake]; exact hinf) l (by rw [htake]; exact hl)
    (by
      rw [hl]
      exact (List.length_filterMap_le _ _).trans hlen) hmod
  obtain ⟨t, rfl⟩ := h2 hl0 hN hnn hap
  obtain ⟨m, s, g1, g2, g3, g4⟩ := h1 t rfl
  have hneg : t.deviation.isNegative = false := by
    rw [isNegative_lt]
    by_contra hlt
    rw [Bool.not_eq_false, FloatArith.lt_iff g3 (FloatArith.finite_zero _), FloatArith.value_zero] at hlt
    linarith
  have htrip : RoundTrips scalerAr t := scaler_trips t
    (library_roundTrips _ .standardScaler (t.average, t.deviation) (t.average, t.deviation) (by simp [standardScaler, hneg]) ⟨trivial, trivial⟩)
  refine C106_deploys (c := scalerAr) (hy X) htrip (fun x h => by cases h) behind (fun bytes hw => ?_) qs₁ qs₂ h₁ h₂
  have h16 := scaler_bytes hw
  refine ⟨fun hx => ?_, hroom _ (by rw [List.length_append, h16])⟩
  have := congrArg List.length hx
  rw [List.length_append, h16] at this
  simp at this

/-- **C106** (max-abs scaler of `float` and `double`, with C69) If no training value is infinite, it can be deployed; what it answers is
C105. -/
theorem C106_max_abs {T : Type} [FloatArith.FloType T] [FloatArith.Lawful T] [Scalar T] {X : Xf T T T} {host host' : Endian}
    {space space' : Nat} {place place' : List UInt8 → Nat} {bs : List (List T)} (hne : bs ≠ []) (hb : NoEmptyBatch bs)
    (hlen : bs.flatten.length < 2 ^ 64) (hfin : ∀ v ∈ bs.flatten, FloatArith.isNaN v = false → FloatText.Finite v)
    (behind : List UInt8) (hroom : ∀ (t : T) (bytes : List UInt8), Writes ((maxAbsScaler T).ar.save t) bytes → bytes ++ behind ≠ [] ∧
      Roomy space' (place' (bytes ++ behind)) (bytes ++ behind).length)
    (qs₁ qs₂ : List (Ask T)) (h₁ : qs₁.length < 2 ^ 63) (h₂ : qs₂.length < 2 ^ 63) :
    ∃ as₁ as₂, Deployment (maxAbsIn (floAbs T) X host space place) (maxAbsIn (floAbs T) X host' space' place')
      (fun b => Roomy space' (place' b) b.length) bs qs₁ as₁ qs₂ as₂ := by
  have htake : bs.flatten.take (2 ^ 64 - 1) = bs.flatten := List.take_of_length_le (by omega)
  obtain ⟨-, h2⟩ := C69_floating (T := T) 0 (2 ^ 64 - 1) (by decide) bs hne hb [[]] (by simp) rfl
    (bs.flatten.filter (fun x => !FloatArith.isNaN x)) (by rw [htake])
  obtain ⟨t, hy, -⟩ := h2 (by
    intro v hv
    obtain ⟨a, b⟩ := List.mem_filter.1 hv
    exact hfin v a (by simpa using b))
  have htrip : RoundTrips (maxAbsScaler T).ar t := library_roundTrips _ (.maxAbsScaler T) t t rfl trivial
  exact C106_deploys (c := (maxAbsScaler T).ar) (hy X) htrip (fun x h => by cases h) behind (fun bytes hw => hroom t bytes hw) qs₁ qs₂ h₁ h₂

/-- **C106** (categorical imputer, with C34) If not all training values are null, it can be deployed; what it answers is C105. -/
theorem C106_cat_imputer {K : Type} [DecidableEq K] [Traits K] [Fits K] [Codec K] {X : Xf K (Option K) (Option K)}
    {it : IterOrder (Option K) UInt32} {host host' : Endian} {space space' : Nat} {place place' : List UInt8 → Nat}
    {bs : List (List (Option K))} (hne : bs ≠ []) (hb : NoEmptyBatch bs) (hlen : bs.flatten.length < 2 ^ 32)
    (hfit : ∀ x, some x ∈ bs.flatten → Fits.fits x) (hsome : ∃ x ∈ bs.flatten, x ≠ none)
    (behind : List UInt8) (hroom : ∀ (t : K) (bytes : List UInt8), some t ∈ bs.flatten → Writes ((imputer K).ar.save t) bytes →
      bytes ++ behind ≠ [] ∧ Roomy space' (place' (bytes ++ behind)) (bytes ++ behind).length)
    (qs₁ qs₂ : List (Ask (Option K))) (h₁ : qs₁.length < 2 ^ 63) (h₂ : qs₂.length < 2 ^ 63) :
    ∃ as₁ as₂, Deployment (catImputerIn X it host space place) (catImputerIn X it host' space' place')
      (fun b => Roomy space' (place' b) b.length) bs qs₁ as₁ qs₂ as₂ := by
  have htake : bs.flatten.take (2 ^ 64 - 1) = bs.flatten := List.take_of_length_le (by omega)
  obtain ⟨-, h2⟩ := C34_mode it 0 (2 ^ 64 - 1) (by decide) bs hne hb (by rw [htake]; exact hlen) [[]] (by simp) rfl rfl rfl
  rw [htake] at h2
  obtain ⟨t, hm, hy, -⟩ := h2 hsome
  have htrip : RoundTrips (imputer K).ar t := library_roundTrips _ (.imputer K) t t rfl (hfit t hm.occurs)
  exact C106_deploys (c := (imputer K).ar) (hy X) htrip (fun x h => by cases x <;> cases h) behind
    (fun bytes hw => hroom t bytes hm.occurs hw) qs₁ qs₂ h₁ h₂

/-! ### Concrete cases -/

/-- Two rows for the summing estimator, in two batches, in the freshly loaded library. -/
example : ∃ l₁ h w₁ es₁ w₂ l₂ k w₃, l₁.Ok (World.start : World Nat Nat) ∧
    serve summer (.call (.createEstimator true) true) l₁ World.start = (.returned true (.handle h) none, w₁) ∧
    Session summer w₁ es₁ w₂ ∧ (∀ e ∈ es₁, e.1 ≠ .call (.destroyEstimator h) true) ∧ TrainsWith [[3], [4, 5]] (sights h es₁) ∧
    l₂.Ok w₂ ∧ serve summer (.call (.createTransformer h true) true) l₂ w₂ = (.returned true (.handle k) none, w₃) ∧
    w₃.object k = some (.xf 12) ∧ given es₁ = [] :=
  C106_trains (F := summer) (s := 0) (n := 9) rfl rfl .start (by simp [given])

/-- A standard scaler of `double` for the values 3 and -4. -/
example (qs₁ qs₂ : List (Ask F64)) (h₁ : qs₁.length < 2 ^ 63) (h₂ : qs₂.length < 2 ^ 63) :
    ∃ as₁ as₂, Deployment (standardScalerIn (FloatStats.floStat F64) true true (Xf.ofFun fun _ x => .ok x) .little (2 ^ 40) (fun _ => 4096))
      (standardScalerIn (FloatStats.floStat F64) true true (Xf.ofFun fun _ x => .ok x) .big (2 ^ 40) (fun _ => 4096))
      (fun b => Roomy (2 ^ 40) 4096 b.length) [[FloatArith.ofInt 3, FloatArith.nan], [FloatArith.ofInt (-4)]] qs₁ as₁ qs₂ as₂ := by
  refine C106_standard_scaler .double (by simp) ?_ (by simp) ?_ [3, -4] ?_ FloatStats.example_moderate (by simp) (by norm_num) ?_
    FloatStats.example_apart [5] ?_ qs₁ qs₂ h₁ h₂
  · intro b hb; simp at hb; rcases hb with rfl | rfl <;> simp
  · have := FloatStats.example_finite
    exact this
  · exact FloatStats.example_numbers.symm
  · exact FloatStats.example_negligible
  · intro b hb
    simp only [Roomy, hb]
    decide

end Feat.CApi
