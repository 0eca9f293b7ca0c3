import Verif.Spec.DataDirectory
import Verif.Props.Transformers
import Verif.Props.Holidays
/-
C94 and C95: the data directory of the date-time featurizer, and date-time transformers in archives.
-/
namespace Feat.DataDirectory

variable {fs : FileSystem}

/-! ### The functions one by one -/

theorem opendir_free {n : Nat} (h : n < fs.limit) (p : List UInt8) :
    opendir fs p n = (.ok (fs.entries p), if (fs.entries p).isSome then n + 1 else n) := by
  unfold opendir
  rw [if_pos h]
  cases fs.entries p <;> rfl

theorem opendir_full {n : Nat} (h : fs.limit ≤ n) (p : List UInt8) : opendir fs p n = (.ok none, n) := by
  unfold opendir
  rw [if_neg (by omega)]

theorem isValidDirectory_free {n : Nat} (h : n < fs.limit) (p : List UInt8) :
    isValidDirectory fs p n = (.ok (fs.entries p).isSome, n) := by
  unfold isValidDirectory
  rw [M.bind_run, opendir_free h]
  cases fs.entries p <;> rfl

theorem isValidDirectory_full {n : Nat} (h : fs.limit ≤ n) (p : List UInt8) :
    isValidDirectory fs p n = (.ok false, n) := by
  unfold isValidDirectory
  rw [M.bind_run, opendir_full h]
  rfl

theorem dataDirectory_free {n : Nat} (h : n < fs.limit) (root : List UInt8) :
    dataDirectory fs root n = (if Usable fs root then .ok (place fs root) else .error .invalidArgument, n) := by
  unfold dataDirectory Usable place
  by_cases hr : root = []
  · subst hr
    simp [M.pure_run]
  · rw [if_pos hr, if_neg hr, M.bind_run, isValidDirectory_free h]
    by_cases hv : (fs.entries (withoutSlash root)).isSome = true
    · simp [hr, hv, M.pure_run]
    · simp [hr, (Bool.not_eq_true _).mp hv, M.throw]

theorem dataDirectory_full {n : Nat} (h : fs.limit ≤ n) (root : List UInt8) :
    dataDirectory fs root n = (if root = [] then .ok (place fs root) else .error .invalidArgument, n) := by
  unfold dataDirectory place
  by_cases hr : root = []
  · subst hr
    simp [M.pure_run]
  · rw [if_pos hr, if_neg hr, M.bind_run, isValidDirectory_full h]
    simp [hr, M.throw]

theorem enumCountries_free {n : Nat} (h : n < fs.limit) (root country : List UInt8) :
    enumCountries fs root (doesCountryMatch country) n =
      (if Usable fs root then .ok (tableOf fs root country) else .error .invalidArgument,
       if Usable fs root ∧ (tableOf fs root country).isSome then n + 1 else n) := by
  unfold enumCountries
  rw [M.bind_run, dataDirectory_free h]
  by_cases hu : Usable fs root
  · rw [if_pos hu, if_pos hu]
    simp only [M.bind_run, opendir_free h, tableOf, tables, hu, true_and]
    cases he : fs.entries (place fs root) with
    | none => rfl
    | some files =>
      simp only [Option.getD_some, Option.isSome_some, if_true]
      rcases Option.eq_none_or_eq_some (files.find? (doesCountryMatch country)) with hf | ⟨v, hf⟩ <;>
        simp [hf, M.pure_run, M.bind_run, closedir]
  · simp only [if_neg hu, hu, false_and, if_false]

theorem enumCountries_full {n : Nat} (h : fs.limit ≤ n) (root : List UInt8) (stop : List UInt8 → Bool) :
    enumCountries fs root stop n = (if root = [] then .ok none else .error .invalidArgument, n) := by
  unfold enumCountries
  rw [M.bind_run, dataDirectory_full h]
  by_cases hr : root = []
  · simp only [if_pos hr, M.bind_run, opendir_full h]
    rfl
  · simp only [if_neg hr]

theorem allCountries_free {n : Nat} (h : n < fs.limit) (root : List UInt8) :
    allCountries fs root n = (if Usable fs root then .ok (tables fs root) else .error .invalidArgument, n) := by
  unfold allCountries
  rw [M.bind_run, dataDirectory_free h]
  by_cases hu : Usable fs root
  · simp only [if_pos hu, M.bind_run, opendir_free h, tables]
    cases he : fs.entries (place fs root) <;> rfl
  · simp only [if_neg hu]

theorem allCountries_full {n : Nat} (h : fs.limit ≤ n) (root : List UInt8) :
    allCountries fs root n = (if root = [] then .ok [] else .error .invalidArgument, n) := by
  unfold allCountries
  rw [M.bind_run, dataDirectory_full h]
  by_cases hr : root = []
  · simp only [if_pos hr, M.bind_run, opendir_full h]
    rfl
  · simp only [if_neg hr]

theorem newTransformer_free {n : Nat} (root country : List UInt8)
    (h : n + (if (Call.transformer root country).finds fs then 1 else 0) < fs.limit) :
    newTransformer fs root country n =
      (holidaysOf fs root country, n + if (Call.transformer root country).finds fs then 1 else 0) := by
  unfold newTransformer holidaysOf
  simp only [Call.finds] at h ⊢
  by_cases hc : country = []
  · subst hc
    simp [M.pure_run]
  · have hn : n < fs.limit := by omega
    rw [if_neg hc, if_neg hc, M.bind_run, enumCountries_free hn]
    by_cases hu : Usable fs root
    · simp only [hc, hu, true_and, if_true, ne_eq, not_false_eq_true] at h ⊢
      cases hf : tableOf fs root country with
      | none => simp [M.throw]
      | some name =>
        simp only [hf, Option.isSome_some, decide_true, if_true] at h ⊢
        rw [M.bind_run, dataDirectory_free h, if_pos hu]
        simp only [M.bind_run, readJson, if_pos h]
        cases hj : fs.json (place fs root ++ name) <;> rfl
    · simp [hu]

/-! ### C94 -/

/-- One call while there are streams to be had: the answer depends on the file system and the arguments only, but if the country
is found one stream more is open afterwards. -/
theorem C94_call (c : Call) (n : Nat) (h : n + (if c.finds fs then 1 else 0) < fs.limit) :
    c.run fs n = (c.expected fs, n + if c.finds fs then 1 else 0) := by
  cases c with
  | isValid root country =>
    have hn : n < fs.limit := by omega
    simp only [Call.run, isValidCountry, Call.expected, Call.finds, M.bind_run, enumCountries_free hn]
    by_cases hu : Usable fs root <;>
      rcases Option.eq_none_or_eq_some (tableOf fs root country) with hf | ⟨v, hf⟩ <;> simp [hu, hf, M.pure_run]
  | supported root =>
    have hn : n < fs.limit := by omega
    simp only [Call.run, getSupportedCountries, Call.expected, Call.finds, M.bind_run, allCountries_free hn]
    by_cases hu : Usable fs root <;> simp [hu, M.pure_run]
  | estimator root country =>
    have hn : n < fs.limit := by omega
    cases country with
    | none => simp [Call.run, newEstimator, Call.expected, Call.finds, M.bind_run, M.pure_run]
    | some country =>
      simp only [Call.run, newEstimator, isValidCountry, Call.expected, Call.finds, M.bind_run, enumCountries_free hn]
      by_cases hu : Usable fs root <;>
        rcases Option.eq_none_or_eq_some (tableOf fs root country) with hf | ⟨v, hf⟩ <;> simp [hu, hf, M.pure_run, M.throw]
  | transformer root country =>
    simp only [Call.run, Call.expected, M.bind_run]
    rw [newTransformer_free root country h]
    cases holidaysOf fs root country <;> rfl

/-- C94, the part that holds: a history of calls, whatever they are and whether they throw or not.  As long as the streams that
were open before and the calls that found a country are together fewer than the limit, every call answers as it should; each of
the calls that found a country leaves one stream open for good. -/
theorem C94_history_partial (cs : List Call) (n : Nat) (h : n + cs.countP (Call.finds fs) < fs.limit) :
    runAll fs cs n = (cs.map (Call.expected fs), n + cs.countP (Call.finds fs)) := by
  induction cs generalizing n with
  | nil => rfl
  | cons c cs ih =>
    rw [List.countP_cons] at h ⊢
    have hc := C94_call (fs := fs) c n (by omega)
    simp only [runAll, hc]
    rw [ih _ (by omega), List.map_cons]
    simp only [Prod.mk.injEq, true_and]
    omega

/-- One call when no stream is to be had: the answer does not depend on what is in the file system. -/
theorem C94_exhausted (c : Call) (n : Nat) (h : fs.limit ≤ n) :
    c.run fs n = (match c with
      | .isValid root _ => if root = [] then .ok (.valid false) else .error .invalidArgument
      | .supported root => if root = [] then .ok (.names []) else .error .invalidArgument
      | .estimator _ none => .ok .estimator
      | .estimator _ (some _) => .error .invalidArgument
      | .transformer _ country => if country = [] then .ok (.transformer [] UMap.empty) else .error .invalidArgument, n) := by
  cases c with
  | isValid root country =>
    simp only [Call.run, isValidCountry, M.bind_run, enumCountries_full h]
    by_cases hr : root = [] <;> simp [hr, M.pure_run]
  | supported root =>
    simp only [Call.run, getSupportedCountries, M.bind_run, allCountries_full h]
    by_cases hr : root = [] <;> simp [hr, M.pure_run, Feat.getSupportedCountries]
  | estimator root country =>
    cases country with
    | none => simp [Call.run, newEstimator, M.bind_run, M.pure_run]
    | some country =>
      simp only [Call.run, newEstimator, isValidCountry, M.bind_run, enumCountries_full h]
      by_cases hr : root = [] <;> simp [hr, M.pure_run, M.throw]
  | transformer root country =>
    simp only [Call.run, M.bind_run, newTransformer]
    by_cases hc : country = []
    · subst hc
      simp [M.pure_run]
    · simp only [if_neg hc, M.bind_run, enumCountries_full h]
      by_cases hr : root = [] <;> simp [hr, M.throw]

theorem runAll_append (cs ds : List Call) (n : Nat) :
    runAll fs (cs ++ ds) n =
      ((runAll fs cs n).1 ++ (runAll fs ds (runAll fs cs n).2).1, (runAll fs ds (runAll fs cs n).2).2) := by
  induction cs generalizing n with
  | nil => rfl
  | cons c cs ih => simp [runAll, ih]

/-- C94 is false: whatever the data directory holds, asking for a country that is there (with the default data root) is answered
with "valid" only as often as there were streams to be had, and with "not valid" ever after. -/
theorem C94_repeat_refuted (country : List UInt8) (hc : (tableOf fs [] country).isSome) (n k : Nat) (hn : n ≤ fs.limit) :
    runAll fs (List.replicate k (.isValid [] country)) n =
      ((List.range k).map (fun i => .ok (.valid (decide (n + i < fs.limit)))), min (n + k) fs.limit) := by
  induction k with
  | zero => simp [runAll, hn]
  | succ k ih =>
    rw [List.replicate_succ', runAll_append, ih, List.range_succ, List.map_append]
    have hf : (Call.isValid [] country).finds fs = true := by simp [Call.finds, Usable, hc]
    by_cases hk : n + k < fs.limit
    · have hm : min (n + k) fs.limit = n + k := by omega
      have h := C94_call (fs := fs) (.isValid [] country) (min (n + k) fs.limit)
      rw [hf] at h
      by_cases hk' : n + k + 1 < fs.limit
      · rw [if_pos rfl] at h
        have h' := h (by omega)
        have he : (Call.isValid [] country).expected fs = .ok (.valid true) := by
          simp [Call.expected, Usable, hc]
        simp only [runAll, h', he, List.map_cons, List.map_nil, hk, decide_true, Prod.mk.injEq, true_and]
        omega
      · have h1 : (Call.isValid [] country).run fs (n + k) = (.ok (.valid true), n + k + 1) := by
          simp only [Call.run, isValidCountry, M.bind_run, enumCountries_free hk]
          have hu : Usable fs [] := Or.inl rfl
          simp [hu, hc, M.pure_run]
        simp only [runAll, hm, h1, List.map_cons, List.map_nil, hk, decide_true, Prod.mk.injEq, true_and]
        omega
    · have hm : min (n + k) fs.limit = fs.limit := by omega
      have h := C94_exhausted (fs := fs) (.isValid [] country) (min (n + k) fs.limit) (by omega)
      simp only [runAll, h, if_true, List.map_cons, List.map_nil, hk, decide_false, Prod.mk.injEq, true_and]
      omega

/-- After these calls nothing can be looked up any more: whatever is asked, the answer is that of an empty data directory. -/
theorem C94_afterwards_refuted (country : List UInt8) (hc : (tableOf fs [] country).isSome) (c : Call) :
    (runAll fs (List.replicate fs.limit (.isValid [] country)) 0).2 = fs.limit ∧
    ((Call.isValid [] country).run fs 0).1 =
      (if 0 < fs.limit then .ok (.valid true) else .ok (.valid false)) ∧
    ((Call.isValid [] country).run fs fs.limit).1 = .ok (.valid false) ∧
    ((Call.supported []).run fs fs.limit).1 = .ok (.names []) ∧
    ((Call.transformer [] country).run fs fs.limit).1 =
      (if country = [] then .ok (.transformer [] UMap.empty) else .error .invalidArgument) ∧
    (c.run fs fs.limit).2 = fs.limit := by
  have h0 := C94_repeat_refuted (fs := fs) country hc 0 1 (by omega)
  refine ⟨?_, ?_, ?_, ?_, ?_, ?_⟩
  · rw [C94_repeat_refuted country hc 0 _ (by omega)]
    simp
  · have h1 := congrArg (fun r => r.1.head?) h0
    simp only [List.replicate_one, runAll, List.head?_cons, List.range_one, List.map_cons, List.map_nil, Option.some.injEq] at h1
    rw [h1]
    by_cases hl : 0 < fs.limit <;> simp [hl]
  · rw [C94_exhausted _ _ (le_refl _)]
    rfl
  · rw [C94_exhausted _ _ (le_refl _)]
    rfl
  · rw [C94_exhausted _ _ (le_refl _)]
  · rw [C94_exhausted _ _ (le_refl _)]

/-- Where the tables are: below the data root, with or without a slash at its end, or beside the executable. -/
theorem C94_place (path name : List UInt8) (hp : path ≠ []) (hs : path.getLast? ≠ some 47) (hn : (47 : UInt8) ∉ name) :
    place fs path = path ++ below ∧ place fs (path ++ [47]) = path ++ below ∧
    (Usable fs path ↔ (fs.entries path).isSome) ∧ (Usable fs (path ++ [47]) ↔ (fs.entries path).isSome) ∧
    (fs.executable = path ++ 47 :: name → place fs [] = path ++ below) := by
  have h0 : below = suffix := by decide
  rw [h0]
  have h1 : withoutSlash path = path := by simp [withoutSlash, hs]
  have h2 : withoutSlash (path ++ [47]) = path := by simp [withoutSlash]
  refine ⟨by simp [place, hp, h1], by simp [place, h2], by simp [Usable, hp, h1], by simp [Usable, h2], ?_⟩
  intro he
  have h3 : (name.reverse ++ 47 :: path.reverse).dropWhile (fun c => decide (c ≠ 47)) = 47 :: path.reverse := by
    rw [List.dropWhile_append_of_pos]
    · simp
    · intro c hc
      simp only [decide_eq_true_eq]
      rintro rfl
      exact hn (List.mem_reverse.1 hc)
  simp only [ne_eq, decide_not] at h3
  simp [place, he, beforeLastSlash, h3]

/-- A data root that is just a slash is never accepted: without the slash it is the empty path, which is no directory. -/
theorem C94_root_refuted (h : fs.entries [] = none) : ¬ Usable fs [47] := by
  simp [Usable, withoutSlash, h]

/-- A file system with the tables "A b.json" and "C" below "/d" and "C" beside the executable "/x/y". -/
def sample : FileSystem where
  entries p :=
    if p = [47, 100] ∨ p = [47, 120] then some []
    else if p = [47, 100] ++ suffix then some [[65, 32, 98, 46, 106], [67]]
    else if p = [47, 120] ++ suffix then some [[67]] else none
  json p :=
    if p = [47, 100] ++ suffix ++ [65, 32, 98, 46, 106] then some [(0, ⟨[78]⟩)]
    else if p = [47, 100] ++ suffix ++ [67] then some [(86400, ⟨[78]⟩)]
    else if p = [47, 120] ++ suffix ++ [67] then some [(0, ⟨[77]⟩)] else none
  executable := [47, 120, 47, 121]
  limit := 3

example : Usable sample [47, 100, 47] ∧ ¬ Usable sample [47, 101] ∧ tableOf sample [] [67] = some [67] ∧
    tableOf sample [47, 100] [97, 98] = some [65, 32, 98, 46, 106] ∧ tableOf sample [] [97, 98] = none := by decide

/-- Two of the calls find their country. -/
example : 0 + [Call.isValid [47, 100] [97, 98], .supported [], .isValid [] [97, 98], .transformer [] [67],
    .estimator [47, 101] (some [67])].countP (Call.finds sample) < sample.limit := by decide

/-! ### C95 -/

theorem load_eq (lookup : Str → Except Err (List (Int × Str))) (a : Archive) :
    (dateTime lookup).load a = (readCountry >>= fun p => liftExcept ((dateTime lookup).make p)) a := by
  show (readVersion >>= fun _ => (Traits.deserialize : M Archive Str) >>= fun p =>
    liftExcept ((dateTime lookup).make p)) a = _
  unfold readCountry
  simp only [M.bind_run]
  rcases readVersion a with ⟨_ | u, a'⟩ <;> rfl

/-- What `save` writes, read with any data root: the transformer that the constructor makes of the country with that data root. -/
theorem C95_reload (t : List UInt8 × UMap Int Str) (hf : Fits.fits (Str.mk t.1)) (hw : Endian) (space : Nat) :
    ∃ bs, (∃ a, saveTransformer t (Archive.mkWriter hw space) = (.ok (), a) ∧ a.buf = bs) ∧
      ∀ hr base pre post, Roomy space base (pre ++ bs ++ post).length → ∀ root n,
        loadTransformer fs root (.rd hr space base (pre ++ bs ++ post) pre.length) n = newTransformer fs root t.1 n := by
  have hmake : (dateTime (fun _ => .ok [])).make (Str.mk t.1) = .ok (Str.mk t.1, []) := by
    by_cases h : t.1 = [] <;> simp [dateTime, h]
  obtain ⟨bs, h1, h2, -⟩ := C08_reload_partial (dateTime (fun _ => .ok [])) (.dateTime _) (Str.mk t.1) (Str.mk t.1, [])
    hmake hf hw space
  refine ⟨bs, ?_, ?_⟩
  · have hs : (dateTime (fun _ => .ok [])).save (Str.mk t.1, []) = saveTransformer t := rfl
    unfold savedBytes at h1
    rw [hs] at h1
    rcases h : saveTransformer t (Archive.mkWriter hw space) with ⟨r, a⟩
    rw [h] at h1
    cases r with
    | ok u => exact ⟨a, rfl, Option.some.inj h1⟩
    | error e => cases h1
  · intro hr base pre post hroom root n
    have h3 := h2 hr base pre post hroom
    rw [load_eq, M.bind_run] at h3
    unfold loadTransformer
    rcases h : readCountry (.rd hr space base (pre ++ bs ++ post) pre.length) with ⟨r, a⟩
    rw [h] at h3
    cases r with
    | error e => cases h3
    | ok c =>
      have hc : (dateTime (fun _ => .ok [])).make c = .ok (c, []) := by
        by_cases h : c.chars = [] <;> simp [dateTime, h]
      simp only [hc, liftExcept] at h3
      have h4 : ((.ok (c, []), a) : Except Err (Str × List (Int × Str)) × Archive) =
        (.ok (⟨t.1⟩, []), .rd hr space base (pre ++ bs ++ post) (pre ++ bs).length) := h3
      simp only [Prod.mk.injEq, Except.ok.injEq] at h4
      simp only [h4.1.1]

theorem holidaysOf_country {root c : List UInt8} {t : List UInt8 × UMap Int Str} (h : holidaysOf fs root c = .ok t) :
    t.1 = c := by
  unfold holidaysOf at h
  split_ifs at h with hc hu
  · cases h
    exact hc.symm
  · cases hf : tableOf fs root c with
    | none => simp [hf] at h
    | some name =>
      simp only [hf] at h
      cases hj : fs.json (place fs root ++ name) with
      | none => simp [hj] at h
      | some table =>
        simp only [hj, Except.ok.injEq] at h
        rw [← h]

/-- C95, the part that holds: a transformer made for a country with a data root, saved, and loaded with the same data root
(`DateTimeFeaturizer_CreateTransformerFromSavedDataWithDataRoot`, or `DateTimeFeaturizer_CreateTransformerFromSavedData` if
there was none) on the same file system has the same country and the same holidays.  The name is shorter than 2^32 bytes, and
two streams can be opened. -/
theorem C95_same_partial (root country : List UInt8) (t : List UInt8 × UMap Int Str)
    (ht : holidaysOf fs root country = .ok t) (hf : Fits.fits (Str.mk country)) (hw : Endian) (space : Nat) :
    ∃ bs, (∃ a, saveTransformer t (Archive.mkWriter hw space) = (.ok (), a) ∧ a.buf = bs) ∧
      ∀ hr base pre post, Roomy space base (pre ++ bs ++ post).length → ∀ n, n + 1 < fs.limit →
        (newTransformer fs root country n).1 = .ok t ∧
        (loadTransformer fs root (.rd hr space base (pre ++ bs ++ post) pre.length) n).1 = .ok t := by
  have hc := holidaysOf_country ht
  obtain ⟨bs, h1, h2⟩ := C95_reload (fs := fs) t (hc ▸ hf) hw space
  refine ⟨bs, h1, fun hr base pre post hroom n hn => ?_⟩
  have h3 : (newTransformer fs root country n).1 = .ok t := by
    rw [newTransformer_free root country (by split <;> omega), ht]
  rw [h2 hr base pre post hroom root n, hc]
  exact ⟨h3, h3⟩

/-- Which data root the transformer was made with is not saved: loaded without one, it has the holidays of the country beside
the executable, or loading throws if there are none. -/
theorem C95_default (root country : List UInt8) (t : List UInt8 × UMap Int Str)
    (ht : holidaysOf fs root country = .ok t) (hf : Fits.fits (Str.mk country)) (hw : Endian) (space : Nat) :
    ∃ bs, (∃ a, saveTransformer t (Archive.mkWriter hw space) = (.ok (), a) ∧ a.buf = bs) ∧
      ∀ hr base pre post, Roomy space base (pre ++ bs ++ post).length → ∀ n, n + 1 < fs.limit →
        (loadTransformer fs [] (.rd hr space base (pre ++ bs ++ post) pre.length) n).1 = holidaysOf fs [] country := by
  have hc := holidaysOf_country ht
  obtain ⟨bs, h1, h2⟩ := C95_reload (fs := fs) t (hc ▸ hf) hw space
  refine ⟨bs, h1, fun hr base pre post hroom n hn => ?_⟩
  rw [h2 hr base pre post hroom [] n, hc, newTransformer_free [] country (by split <;> omega)]

/-- C95 is false: in the sample file system "ab" made with the data root "/d" cannot be loaded without it, and "C" has other
holidays when it is. -/
theorem C95_default_refuted :
    holidaysOf sample [47, 100] [97, 98] = .ok ([97, 98], holidayMap [(0, ⟨[78]⟩)]) ∧
    holidaysOf sample [] [97, 98] = .error .invalidArgument ∧
    holidaysOf sample [47, 100] [67] = .ok ([67], holidayMap [(86400, ⟨[78]⟩)]) ∧
    holidaysOf sample [] [67] = .ok ([67], holidayMap [(0, ⟨[77]⟩)]) ∧
    (holidayMap [(86400, ⟨[78]⟩)]).find? 0 = none ∧ (holidayMap [(0, ⟨[77]⟩)]).find? 0 = some ⟨[77]⟩ := by
  refine ⟨rfl, rfl, rfl, rfl, rfl, rfl⟩

/-- The hypotheses of the theorems can be met. -/
example : Fits.fits (Str.mk [97, 98]) ∧ 0 + 1 < sample.limit := by
  refine ⟨?_, by decide⟩
  show ([97, 98] : List UInt8).length < _
  norm_num

end Feat.DataDirectory
