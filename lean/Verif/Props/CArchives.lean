import Verif.Model.CArchives
import Verif.Props.CApi
import Verif.Props.Format
/-
**C103** Saving and loading transformers through the C interface.
-/
namespace Feat.CApi
variable {σ σ₂ ι ι₂ O O₂ : Type}

theorem load_at (c : ArClass) (host : Endian) (space : Nat) (place : List UInt8 → Nat) (b : List UInt8)
    (hb : b ≠ []) : apiLoad c host space place b = (c.load (.rd host space (place b) ([] ++ b) ([] : List UInt8).length)).1 := by
  have hl : b.length ≠ 0 := fun h => hb (List.length_eq_zero_iff.1 h)
  have hm : Archive.mkReaderPtr host space (some (place b, b)) b.length = .ok (.mkReader host space (place b) b) := by
    simp only [Archive.mkReaderPtr]
    rw [if_neg hl, List.take_length]
  unfold apiLoad
  rw [hm]
  rfl

theorem save_of (c : ArClass) (host : Endian) (space : Nat) (t : c.Obj) (bs : List UInt8)
    (h : Writes (c.save t) bs) : apiSave c host space t = .ok bs := by
  unfold apiSave
  rw [h _ rfl]
  rfl

/-- **C103** A transformer saved through the C interface, after any history of calls, can be loaded through it in any
process: after any other history there, on a machine of either byte order, wherever the buffer lies, with bytes of any
kind behind the saved ones.  Saving changes no object; loading makes one new handle, for an equal transformer. -/
theorem C103_round_trip (c : ArClass) (t : c.Obj) (ht : RoundTrips c t) :
    ∃ bs, (∀ (F : Featurizer σ ι c.Obj O) host space place es w l i,
        History (F.archiving c host space place) es w → l.Ok w → l.Delivers w → w.object i = some (.xf t) →
        ∃ w', serve (F.archiving c host space place) (.call (.save i true) true) l w
            = (.returned true (.bytes bs) none, w') ∧ ∀ j, w'.object j = w.object j) ∧
      ∀ (F₂ : Featurizer σ₂ ι₂ c.Obj O₂) host space place es w l behind,
        History (F₂.archiving c host space place) es w → l.Ok w → l.Delivers w → bs ++ behind ≠ [] →
        Roomy space (place (bs ++ behind)) (bs ++ behind).length →
        ∃ j w', serve (F₂.archiving c host space place) (.call (.loadTransformer (some (bs ++ behind)) true) true) l w
            = (.returned true (.handle j) none, w') ∧ j ≠ 0 ∧ w.object j = none ∧
          ∀ k, w'.object k = if k = j then some (.xf t) else w.object k := by
  obtain ⟨bs, hw, hr, _⟩ := ht
  refine ⟨bs, fun F host space place es w l i h hl hd hi => ?_, fun F host space place es w l behind h hl hd hne hroom => ?_⟩
  · have ho := C60_call h hl hd (.save i true) rfl
    rw [show (Call.save i true : Call ι).handle = i from rfl, hi] at ho
    have hs : (F.archiving c host space place).save t = .ok bs := save_of c host space t bs hw
    simp only [direct, onXf, if_true, hs] at ho
    generalize hsv : serve (F.archiving c host space place) (.call (.save i true) true) l w = s at ho ⊢
    obtain ⟨rep, w'⟩ := s
    simp only [Outcome] at ho
    refine ⟨w', by rw [ho.1], fun j => ?_⟩
    rw [ho.2]
    split
    · rename_i hj; rw [hj, hi]
    · rfl
  · have ho := C60_call h hl hd (.loadTransformer (some (bs ++ behind)) true) rfl
    rw [show (Call.loadTransformer (some (bs ++ behind)) true : Call ι₂).handle = 0 from rfl] at ho
    have hld : (F.archiving c host space place).load (bs ++ behind) = .ok t := by
      have h1 := hr host space (place (bs ++ behind)) [] behind (by simpa using hroom)
      show apiLoad c host space place (bs ++ behind) = .ok t
      rw [load_at _ _ _ _ _ hne]
      simp only [List.nil_append] at h1 ⊢
      rw [h1]
    simp only [direct] at ho
    rw [if_neg (by simp [hne]), hld] at ho
    generalize hsv : serve (F.archiving c host space place) (.call (.loadTransformer (some (bs ++ behind)) true) true) l w
      = s at ho ⊢
    obtain ⟨rep, w'⟩ := s
    obtain ⟨j, h1, h2, h3, h4⟩ := ho
    refine ⟨j, w', by rw [h1], h2, h3, fun k => ?_⟩
    rw [h4]
    by_cases hk : k = j
    · rw [if_pos hk, if_pos hk]
    · rw [if_neg hk, if_neg hk]
      by_cases hk0 : k = 0
      · rw [if_pos hk0, hk0, h.object_zero]
      · rw [if_neg hk0]

/-- **C103** Arbitrary bytes given to the C interface, after any history: with the format `p` of the archives, bytes that
describe a transformer give a new handle for it, whatever follows them; others are refused with an error handle; what other
handles stand for never changes.  (Bytes for which reading is undefined: see C100.) -/
theorem C103_any_bytes (c : ArClass) (p : Parser c.Obj) (hp : Follows c.load p) (F : Featurizer σ ι c.Obj O)
    (host : Endian) (space : Nat) (place : List UInt8 → Nat) {es : List (Request ι × Reply O)} {w : World σ c.Obj}
    (h : History (F.archiving c host space place) es w) {l : Luck} (hl : l.Ok w) (hd : l.Delivers w) (b : List UInt8)
    (hb : b ≠ []) (hroom : Roomy space (place b) b.length) :
    match p b with
    | .done t _ => ∃ j w', serve (F.archiving c host space place) (.call (.loadTransformer (some b) true) true) l w
          = (.returned true (.handle j) none, w') ∧ j ≠ 0 ∧ w.object j = none ∧
        ∀ k, w'.object k = if k = j then some (.xf t) else w.object k
    | .refused => ∃ i e w', serve (F.archiving c host space place) (.call (.loadTransformer (some b) true) true) l w
          = (.returned false .nothing (some i), w') ∧ i ≠ 0 ∧ w.object i = none ∧ e.isException ∧
        ∀ k, w'.object k = if k = i then some (.message e) else w.object k
    | .undefined => (serve (F.archiving c host space place) (.call (.loadTransformer (some b) true) true) l w).1 = .crashed := by
  have ho := C60_call h hl hd (.loadTransformer (some b) true) rfl
  rw [show (Call.loadTransformer (some b) true : Call ι).handle = 0 from rfl] at ho
  have hf := hp host space (place b) [] b (by simpa using hroom)
  have hld : (F.archiving c host space place).load b
      = (c.load (.rd host space (place b) ([] ++ b) ([] : List UInt8).length)).1 := load_at c host space place b hb
  simp only [direct] at ho
  rw [if_neg (by simp [hb]), hld] at ho
  have h0 := h.object_zero
  generalize serve (F.archiving c host space place) (.call (.loadTransformer (some b) true) true) l w = s at ho ⊢
  obtain ⟨rep, w'⟩ := s
  rcases hpb : p b with ⟨t, rest⟩ | _ | _ <;> rw [hpb] at hf <;> simp only at hf ⊢
  · obtain ⟨used, _, e1⟩ := hf
    rw [e1] at ho
    obtain ⟨j, h1, h2, h3, h4⟩ := ho
    refine ⟨j, w', by rw [h1], h2, h3, fun k => ?_⟩
    rw [h4]
    split
    · rfl
    · split
      · rename_i hk; rw [hk, h0]
      · rfl
  · obtain ⟨e, a', e1, e2⟩ := hf
    rw [e1] at ho
    cases e with
    | ub => exact absurd e2 id
    | _ =>
      obtain ⟨i, h1, h2, h3, h4⟩ := ho
      refine ⟨i, _, w', by rw [h1], h2, h3, e2, fun k => ?_⟩
      rw [h4]
      split
      · rfl
      · split
        · rename_i hk; rw [hk, h0]
        · rfl
  · obtain ⟨a', e1⟩ := hf
    rw [e1] at ho
    exact ho

/-- **C103** No buffer, an empty one, or no place for the handle: refused, nothing changes. -/
theorem C103_no_bytes (c : ArClass) (F : Featurizer σ ι c.Obj O) (host : Endian) (space : Nat) (place : List UInt8 → Nat)
    {es : List (Request ι × Reply O)} {w : World σ c.Obj} (h : History (F.archiving c host space place) es w) {l : Luck}
    (hl : l.Ok w) (hd : l.Delivers w) (b : Option (List UInt8)) (out : Bool) (hb : b = none ∨ b = some [] ∨ out = false) :
    ∃ i w', serve (F.archiving c host space place) (.call (.loadTransformer b out) true) l w
        = (.returned false .nothing (some i), w') ∧ i ≠ 0 ∧ w.object i = none ∧
      ∀ k, w'.object k = if k = i then some (.message .invalidArgument) else w.object k := by
  have ho := C60_call h hl hd (.loadTransformer b out) rfl
  rw [show (Call.loadTransformer b out : Call ι).handle = 0 from rfl] at ho
  have h0 := h.object_zero
  have hdir : direct (F.archiving c host space place) (w.object 0) (.loadTransformer b out) = .fails .invalidArgument none := by
    rcases b with _ | b
    · rfl
    · simp only [direct]
      rw [if_pos]
      rcases hb with hb | hb | hb
      · cases hb
      · right; exact Option.some.inj hb
      · left; exact hb
  rw [hdir] at ho
  generalize serve (F.archiving c host space place) (.call (.loadTransformer b out) true) l w = s at ho ⊢
  obtain ⟨rep, w'⟩ := s
  obtain ⟨i, h1, h2, h3, h4⟩ := ho
  refine ⟨i, w', by rw [h1], h2, h3, fun k => ?_⟩
  rw [h4]
  split
  · rfl
  · split
    · rename_i hk; rw [hk, h0]
    · rfl

/-- Two replies say the same: the same values, or errors that describe the same exception. -/
def SameReply {τ : Type} (s : Reply O × World σ τ) (s₂ : Reply O × World σ₂ τ) : Prop :=
  (∃ v, s.1 = .returned true v none ∧ s₂.1 = .returned true v none) ∨
  (∃ i i₂ e, s.1 = .returned false .nothing (some i) ∧ s₂.1 = .returned false .nothing (some i₂) ∧
    s.2.object i = some (.message e) ∧ s₂.2.object i₂ = some (.message e)) ∨
  (s.1 = .crashed ∧ s₂.1 = .crashed)

/-- **C103** Handles for equal transformers answer alike, in any two processes, and stand for equal transformers afterwards
(unless the call is undefined). -/
theorem C103_same_answers {τ : Type} (F : Featurizer σ ι τ O) (F₂ : Featurizer σ₂ ι τ O) (hF : F₂.xf = F.xf)
    {es : List (Request ι × Reply O)} {es₂ : List (Request ι × Reply O)} {w : World σ τ} {w₂ : World σ₂ τ}
    (h : History F es w) (h₂ : History F₂ es₂ w₂) {l l₂ : Luck} (hl : l.Ok w) (hl₂ : l₂.Ok w₂) (hd : l.Delivers w)
    (hd₂ : l₂.Delivers w₂) (i i₂ : Nat) (t : τ) (hi : w.object i = some (.xf t)) (hi₂ : w₂.object i₂ = some (.xf t)) (x : ι) :
    SameReply (serve F (.call (.transform i x true) true) l w) (serve F₂ (.call (.transform i₂ x true) true) l₂ w₂) ∧
    ((serve F (.call (.transform i x true) true) l w).1 ≠ .crashed →
      ∃ t', (serve F (.call (.transform i x true) true) l w).2.object i = some (.xf t') ∧
        (serve F₂ (.call (.transform i₂ x true) true) l₂ w₂).2.object i₂ = some (.xf t')) := by
  have ho := C60_call h hl hd (.transform i x true) rfl
  have ho₂ := C60_call h₂ hl₂ hd₂ (.transform i₂ x true) rfl
  rw [show (Call.transform i x true : Call ι).handle = i from rfl, hi] at ho
  rw [show (Call.transform i₂ x true : Call ι).handle = i₂ from rfl, hi₂] at ho₂
  simp only [direct, onXf, if_true, hF] at ho ho₂
  generalize serve F (.call (.transform i x true) true) l w = s at ho ⊢
  generalize serve F₂ (.call (.transform i₂ x true) true) l₂ w₂ = s₂ at ho₂ ⊢
  obtain ⟨rep, w'⟩ := s
  obtain ⟨rep₂, w₂'⟩ := s₂
  rcases hx : executeOne F.xf x t with ⟨r, t'⟩
  rw [hx] at ho ho₂
  rcases r with e | v
  · cases e with
    | ub =>
      have e1 : rep = .crashed := ho
      have e2 : rep₂ = .crashed := ho₂
      exact ⟨.inr (.inr ⟨e1, e2⟩), fun hn => absurd e1 hn⟩
    | _ =>
      obtain ⟨a, a1, a2, a3, a4⟩ := ho
      obtain ⟨b, b1, b2, b3, b4⟩ := ho₂
      have na : i ≠ a := fun hh => by rw [hh, a3] at hi; cases hi
      have nb : i₂ ≠ b := fun hh => by rw [hh, b3] at hi₂; cases hi₂
      have p1 := a4 a
      have p2 := b4 b
      rw [if_pos rfl] at p1 p2
      refine ⟨.inr (.inl ⟨a, b, _, a1, b1, p1, p2⟩), fun _ => ⟨t', ?_, ?_⟩⟩
      · show w'.object i = _
        rw [a4, if_neg na, if_pos rfl]
      · show w₂'.object i₂ = _
        rw [b4, if_neg nb, if_pos rfl]
  · obtain ⟨a1, a4⟩ := ho
    obtain ⟨b1, b4⟩ := ho₂
    refine ⟨.inl ⟨_, a1, b1⟩, fun _ => ⟨t', ?_, ?_⟩⟩
    · show w'.object i = _
      rw [a4, if_pos rfl]
    · show w₂'.object i₂ = _
      rw [b4, if_pos rfl]

/-! ### A concrete case -/

/-- The sample featurizer: it adds its delta. -/
private def adder : Featurizer UInt32 UInt32 sampleAdd.ar.Obj UInt32 where
  new := .ok 5
  hooks :=
    { begin := fun s => (.ok false, s)
      fit := fun _ s => (.ok .complete, s)
      onDataCompleted := fun s => (.ok true, s)
      complete := fun s => (.ok (), s)
      create := fun s => (.ok (some s), s) }
  xf := { exec := fun (t : UInt32) x => ⟨[t + x], none, t⟩, flush := noFlush }
  load _ := .error .runtimeError
  save _ := .error .runtimeError

/-- In a process on a machine with 64-bit addresses: an estimator, trained without data; its transformer is handle 11. -/
private def trainedReplies (F : Featurizer UInt32 UInt32 sampleAdd.ar.Obj UInt32) :
    List (Reply UInt32) × World UInt32 sampleAdd.ar.Obj :=
  serveAll F 0 [.call (.createEstimator true) true, .call (.completeTraining 7) true, .call (.createTransformer 7 true) true,
    .call (.save 11 true) true, .call (.loadTransformer (some [1, 0, 0, 0, 5, 0, 0, 0, 99]) true) true,
    .call (.transform 15 2 true) true, .call (.loadTransformer (some [1, 0, 0, 0, 5, 0, 0]) true) true] World.start

/-- What it saves is loaded again, trailing bytes or not, and answers 7; a part of it is refused. -/
example : (trainedReplies (adder.archiving sampleAdd.ar .little (2 ^ 64) fun _ => 4096)).1 =
    [.returned true (.handle 7) none, .returned true .nothing none, .returned true (.handle 11) none,
     .returned true (.bytes [1, 0, 0, 0, 5, 0, 0, 0]) none, .returned true (.handle 15) none,
     .returned true (.item 7) none, .returned false .nothing (some 20)] := by rfl

/-- The hypotheses of `C103_round_trip` and `C103_any_bytes` are met. -/
example : RoundTrips sampleAdd.ar (5 : UInt32) ∧
    Follows sampleAdd.ar.load (sampleAdd.format (Format.parse (T := UInt32))) ∧
    Roomy (2 ^ 64) 4096 [1, 0, 0, 0, 5, 0, 0, (0 : UInt8)].length :=
  ⟨library_roundTrips sampleAdd .sampleAdd (5 : UInt32) (5 : UInt32) rfl trivial, C100_load sampleAdd _ .sampleAdd,
    by unfold Roomy; decide⟩

end Feat.CApi
