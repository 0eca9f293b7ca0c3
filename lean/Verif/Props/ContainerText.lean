import Verif.Spec.ContainerText
import Verif.Props.FloatText
/-
C89: the texts of containers.
-/
namespace Feat.ContainerText

/-! ### Formats -/

private theorem commas_cons (a b : List UInt8) (rest : List (List UInt8)) :
    commas (a :: b :: rest) = a ++ 44 :: commas (b :: rest) := by
  simp [commas]

private theorem bufferLoop_eq {T : Type} [TextTraits T] (x : T) (rest : List T) :
    bufferLoop x rest = commas ((x :: rest).map TextTraits.toText) := by
  induction rest generalizing x with
  | nil => simp [bufferLoop, commas]
  | cons y rest ih =>
    rw [bufferLoop, ih, List.map_cons, List.map_cons, List.map_cons, commas_cons]

private theorem bufferText_eq {T : Type} [TextTraits T] (v : List T) :
    bufferText v = within '[' ']' (commas (v.map TextTraits.toText)) := by
  cases v with
  | nil => rfl
  | cons x rest => rw [bufferText, bufferLoop_eq]; rfl

private theorem setLoop_eq {K : Type} [TextTraits K] (v : List K) :
    setLoop v = commas (v.map TextTraits.toText) := by
  induction v with
  | nil => rfl
  | cons x rest ih =>
    rw [setLoop, ih]
    cases rest with
    | nil => simp [commas]
    | cons y rest => rw [List.map_cons (l := y :: rest), List.map_cons, commas_cons]; simp

private theorem setText_eq {K : Type} [TextTraits K] (v : List K) :
    setText v = within '{' '}' (commas (v.map TextTraits.toText)) := by
  rw [setText, setLoop_eq]; rfl

/-- The text of an entry. -/
private def entry {K V : Type} [TextTraits K] [TextTraits V] (e : K × V) : List UInt8 :=
  TextTraits.toText e.1 ++ 58 :: TextTraits.toText e.2

private theorem mapLoop_eq {K V : Type} [TextTraits K] [TextTraits V] (v : List (K × V)) :
    mapLoop v = commas (v.map entry) := by
  induction v with
  | nil => rfl
  | cons x rest ih =>
    rw [mapLoop, ih]
    cases rest with
    | nil => simp [commas, entry]
    | cons y rest => rw [List.map_cons (l := y :: rest), List.map_cons, commas_cons]; simp [entry]

private theorem mapText_eq {K V : Type} [TextTraits K] [TextTraits V] (v : List (K × V)) :
    mapText v = within '{' '}' (commas (v.map entry)) := by
  rw [mapText, mapLoop_eq]; rfl

/-- **C89 (formats)** The text of a vector, of an array or of a matrix is the texts of its elements in the order of
storage, separated by commas, in square brackets; the text of an unordered set is the texts of its elements in the
order of iteration, separated by commas, in braces; the text of a map is the texts of its entries, key, colon and
value, separated by commas, in braces: in the order of the keys, and for an unordered map in the order of
iteration. -/
theorem C89_formats {K V : Type} [LinearOrder K] [TextTraits K] [TextTraits V] (v : List V) (n : Nat) (a : Arr V n)
    (cm : Bool) (m : Mat V cm) (s : USet V) (om : OMap K V) (um : UMap K V) :
    TextTraits.toText v = within '[' ']' (commas (v.map TextTraits.toText)) ∧
    TextTraits.toText a = within '[' ']' (commas (a.items.map TextTraits.toText)) ∧
    TextTraits.toText m = within '[' ']' (commas (m.outer.flatten.map TextTraits.toText)) ∧
    TextTraits.toText s = within '{' '}' (commas (s.elems.map TextTraits.toText)) ∧
    TextTraits.toText om = within '{' '}' (commas (om.entries.map fun e =>
      TextTraits.toText e.1 ++ UInt8.ofNat ':'.toNat :: TextTraits.toText e.2)) ∧
    TextTraits.toText um = within '{' '}' (commas (um.entries.map fun e =>
      TextTraits.toText e.1 ++ UInt8.ofNat ':'.toNat :: TextTraits.toText e.2)) :=
  ⟨bufferText_eq v, bufferText_eq a.items, bufferText_eq m.outer.flatten, setText_eq s.elems, mapText_eq om.entries,
    mapText_eq um.entries⟩

/-- **C89 (tuples)** The text of a tuple is the texts of its elements, separated by commas, in parentheses: stated
for one element, for one more element in front of any tuple (whose opening parenthesis is dropped), and for three. -/
theorem C89_tuples {T A B C : Type} [TextTraits T] [Fields A] [TextTraits B] [TextTraits C] (x : T) (fields : A) (b : B)
    (c : C) :
    TextTraits.toText (Tuple.mk (Last.mk x)) = within '(' ')' (TextTraits.toText x) ∧
    TextTraits.toText (Tuple.mk (x, fields)) =
      UInt8.ofNat '('.toNat :: TextTraits.toText x ++ UInt8.ofNat ','.toNat :: (TextTraits.toText (Tuple.mk fields)).tail ∧
    TextTraits.toText (Tuple.mk (x, b, Last.mk c)) =
      within '(' ')' (commas [TextTraits.toText x, TextTraits.toText b, TextTraits.toText c]) := by
  refine ⟨rfl, ?_, ?_⟩
  · show [40] ++ (TextTraits.toText x ++ 44 :: Fields.helper fields) ++ [41] = _
    show _ = 40 :: TextTraits.toText x ++ 44 :: ([40] ++ Fields.helper fields ++ [41]).tail
    simp
  · show [40] ++ (TextTraits.toText x ++ 44 :: (TextTraits.toText b ++ 44 :: TextTraits.toText c)) ++ [41] = _
    show _ = 40 :: commas _ ++ [41]
    simp [commas]

/-! ### Texts that can be told apart -/

/-- The characters that can follow the text of an element. -/
private def isStop (c : UInt8) : Bool := c = 44 ∨ c = 58 ∨ c = 41 ∨ c = 93 ∨ c = 125

private def Stops (r : List UInt8) : Prop := ∀ c ∈ r.head?, isStop c = true

private def Starts (s : List UInt8) : Prop := ∃ c t, s = c :: t ∧ isStop c = false

/-- The texts of a type do not begin with a stop, and where one ends can be told. -/
private structure Separable (T : Type) (text : T → List UInt8) : Prop where
  starts : ∀ x, Starts (text x)
  splits : ∀ x y r s, Stops r → Stops s → text x ++ r = text y ++ s → text x = text y ∧ r = s

private theorem stops_cons {c : UInt8} (h : isStop c = true) (r : List UInt8) : Stops (c :: r) := by
  intro d hd; simp at hd; rw [← hd]; exact h

private theorem stops_nil : Stops [] := by intro d hd; simp at hd

/-- Texts without stops. -/
private theorem separable_of {T : Type} {text : T → List UInt8} (h1 : ∀ x, text x ≠ [])
    (h2 : ∀ x, ∀ c ∈ text x, isStop c = false) : Separable T text where
  starts x := by
    obtain ⟨c, t, h⟩ := List.exists_cons_of_ne_nil (h1 x)
    exact ⟨c, t, h, h2 x c (by simp [h])⟩
  splits x y r s hr hs h := by
    have key : ∀ (a r : List UInt8), (∀ c ∈ a, isStop c = false) → Stops r →
        (a ++ r).takeWhile (fun c => !isStop c) = a := by
      intro a r ha hr
      refine FloatText.takeWhile_front _ a r (fun c hc => by simp [ha c hc]) ?_
      intro c hc
      simpa using hr c hc
    have h3 : text x = text y := by
      rw [← key (text x) r (h2 x) hr, h, key (text y) s (h2 y) hs]
    exact ⟨h3, by rw [h3] at h; exact List.append_cancel_left h⟩

/-- Texts separated by commas and closed by a bracket. -/
private theorem commas_split {T : Type} {text : T → List UInt8} (h : Separable T text) {closing : UInt8}
    (hc : isStop closing = true) (hn : closing ≠ 44) :
    ∀ (v w : List T) (r s : List UInt8), commas (v.map text) ++ closing :: r = commas (w.map text) ++ closing :: s →
      v.map text = w.map text ∧ r = s
  | [], [], r, s, e => by simpa [commas] using e
  | [], y :: w, r, s, e => by
    exfalso
    obtain ⟨c, t, h1, h2⟩ := h.starts y
    have : ∃ t', commas ((y :: w).map text) = c :: t' := by
      cases w with
      | nil => exact ⟨t, by simp [commas, h1]⟩
      | cons z w => exact ⟨_, by rw [List.map_cons, List.map_cons, commas_cons, h1]; rfl⟩
    obtain ⟨t', h3⟩ := this
    rw [h3] at e
    simp only [commas, List.map_nil, List.intersperse_nil, List.flatten_nil, List.nil_append, List.cons_append,
      List.cons.injEq] at e
    rw [e.1] at hc
    rw [h2] at hc; cases hc
  | x :: v, [], r, s, e => by
    exfalso
    obtain ⟨c, t, h1, h2⟩ := h.starts x
    have : ∃ t', commas ((x :: v).map text) = c :: t' := by
      cases v with
      | nil => exact ⟨t, by simp [commas, h1]⟩
      | cons z w => exact ⟨_, by rw [List.map_cons, List.map_cons, commas_cons, h1]; rfl⟩
    obtain ⟨t', h3⟩ := this
    rw [h3] at e
    simp only [commas, List.map_nil, List.intersperse_nil, List.flatten_nil, List.nil_append, List.cons_append,
      List.cons.injEq] at e
    rw [← e.1] at hc
    rw [h2] at hc; cases hc
  | [x], [y], r, s, e => by
    simp only [commas, List.map_cons, List.map_nil, List.intersperse_singleton, List.flatten_cons, List.flatten_nil,
      List.append_nil] at e
    obtain ⟨h1, h2⟩ := h.splits x y _ _ (stops_cons hc r) (stops_cons hc s) e
    simp only [List.cons.injEq, true_and] at h2
    exact ⟨by simp [h1], h2⟩
  | [x], y :: z :: w, r, s, e => by
    exfalso
    rw [List.map_cons, List.map_cons, List.map_cons, commas_cons, List.append_assoc] at e
    simp only [commas, List.map_nil, List.intersperse_singleton, List.flatten_cons, List.flatten_nil,
      List.append_nil] at e
    obtain ⟨h1, h2⟩ := h.splits x y _ _ (stops_cons hc r) (stops_cons (by decide) _) e
    simp only [List.cons_append, List.cons.injEq] at h2
    exact hn h2.1
  | x :: z :: v, [y], r, s, e => by
    exfalso
    rw [List.map_cons, List.map_cons, List.map_cons, commas_cons, List.append_assoc] at e
    simp only [commas, List.map_nil, List.intersperse_singleton, List.flatten_cons, List.flatten_nil,
      List.append_nil] at e
    obtain ⟨h1, h2⟩ := h.splits x y _ _ (stops_cons (by decide) _) (stops_cons hc s) e
    simp only [List.cons_append, List.cons.injEq] at h2
    exact hn h2.1.symm
  | x :: x' :: v, y :: y' :: w, r, s, e => by
    rw [List.map_cons, List.map_cons, List.map_cons, List.map_cons, commas_cons, commas_cons, List.append_assoc,
      List.append_assoc] at e
    obtain ⟨h1, h2⟩ := h.splits x y _ _ (stops_cons (by decide) _) (stops_cons (by decide) _) e
    simp only [List.cons_append, List.cons.injEq, true_and] at h2
    obtain ⟨h3, h4⟩ := commas_split h hc hn (x' :: v) (y' :: w) r s (by simpa using h2)
    exact ⟨by rw [List.map_cons (l := x' :: v), List.map_cons (l := y' :: w), h1, h3], h4⟩

private theorem entry_separable {K V : Type} [TextTraits K] [TextTraits V]
    (hk : Separable K TextTraits.toText) (hv : Separable V TextTraits.toText) :
    Separable (K × V) entry where
  starts e := by
    obtain ⟨c, t, h1, h2⟩ := hk.starts e.1
    exact ⟨c, t ++ 58 :: TextTraits.toText e.2, by rw [entry, h1]; rfl, h2⟩
  splits x y r s hr hs h := by
    unfold entry at h ⊢
    rw [List.append_assoc, List.append_assoc] at h
    obtain ⟨h1, h2⟩ := hk.splits x.1 y.1 _ _ (stops_cons (by decide) _) (stops_cons (by decide) _) h
    simp only [List.cons_append, List.cons.injEq, true_and] at h2
    obtain ⟨h3, h4⟩ := hv.splits x.2 y.2 r s hr hs h2
    exact ⟨by rw [h1, h3], h4⟩

/-- A type whose values all have texts `o commas c`. -/
private theorem bracket_separable {T C : Type} {text : T → List UInt8} (h : Separable T text) (items : C → List T)
    {opening closing : UInt8} (ho : isStop opening = false) (hc : isStop closing = true) (hn : closing ≠ 44) :
    Separable C (fun x => opening :: commas ((items x).map text) ++ [closing]) where
  starts x := ⟨opening, _, rfl, ho⟩
  splits x y r s _ _ e := by
    simp only [List.cons_append, List.append_assoc, List.nil_append, List.cons.injEq, true_and] at e
    obtain ⟨h1, h2⟩ := commas_split h hc hn _ _ r s e
    exact ⟨by simp only [h1], h2⟩

/-- What is shown of every plain type. -/
private structure Good (T : Type) [TextTraits T] : Prop where
  separable : Separable T TextTraits.toText
  inj : ∀ x y : T, (TextTraits.toText x : List UInt8) = TextTraits.toText y → x = y

private structure GoodFields (A : Type) [Fields A] : Prop where
  starts : ∀ a : A, Starts (Fields.helper a)
  splits : ∀ (a b : A) r s, Fields.helper a ++ 41 :: r = Fields.helper b ++ 41 :: s →
    (Fields.helper a : List UInt8) = Fields.helper b ∧ r = s
  inj : ∀ a b : A, (Fields.helper a : List UInt8) = Fields.helper b → a = b

private theorem map_inj {T U : Type} {f : T → U} (h : ∀ x y, f x = f y → x = y) {v w : List T} (e : v.map f = w.map f) :
    v = w := List.map_injective_iff.2 (fun x y hxy => h x y hxy) e

private theorem bracket_good {T C : Type} [TextTraits C] {text : T → List UInt8} (h : Separable T text)
    (hi : ∀ x y, text x = text y → x = y) (items : C → List T) (items_inj : ∀ a b, items a = items b → a = b)
    {opening closing : UInt8} (ho : isStop opening = false) (hc : isStop closing = true) (hn : closing ≠ 44)
    (e : ∀ x : C, TextTraits.toText x = opening :: commas ((items x).map text) ++ [closing]) : Good C := by
  have e' : (TextTraits.toText : C → List UInt8) = fun x => opening :: commas ((items x).map text) ++ [closing] :=
    funext e
  refine ⟨by rw [e']; exact bracket_separable h items ho hc hn, ?_⟩
  intro x y hxy
  rw [e, e] at hxy
  simp only [List.cons_append, List.cons.injEq, true_and] at hxy
  exact items_inj _ _ (map_inj hi (commas_split h hc hn _ _ [] [] hxy).1)

private theorem bytes_stop (c : UInt8) : isDigit c = true ∨ c = 45 → isStop c = false ∧ c ≠ 78 :=
  FloatText.byte_all (P := fun c => isDigit c = true ∨ c = 45 → isStop c = false ∧ c ≠ 78) (by decide +kernel) c

private theorem intText_bytes (z : Int) : intText z ≠ [] ∧ ∀ c ∈ intText z, isDigit c = true ∨ c = 45 := by
  obtain ⟨h1, h2, _⟩ := natText_spec z.natAbs
  unfold intText
  split
  · refine ⟨by simp, fun c hc => ?_⟩
    rcases List.mem_cons.1 hc with h | h
    · exact .inr h
    · exact .inl (h2 c h)
  · exact ⟨h1, fun c hc => .inl (h2 c hc)⟩

private theorem inj_of_round_trip {T : Type} [TextTraits T]
    (h : ∀ x : T, TextTraits.fromText (TextTraits.toText x) = .ok x) (x y : T)
    (e : (TextTraits.toText x : List UInt8) = TextTraits.toText y) : x = y := by
  have h1 := h x
  rw [e, h y] at h1
  exact (Except.ok.inj h1).symm

/-- No text of the type begins with "N". -/
private def NotN (T : Type) [TextTraits T] : Prop := ∀ x : T, (TextTraits.toText x : List UInt8).head? ≠ some 78

private theorem int_good {T : Type} [TextTraits T] (z : T → Int) (hz : ∀ x : T, TextTraits.toText x = intText (z x))
    (h : ∀ x : T, TextTraits.fromText (TextTraits.toText x) = .ok x) : Good T ∧ NotN T := by
  refine ⟨⟨separable_of ?_ ?_, inj_of_round_trip h⟩, ?_⟩
  · intro x; rw [hz]; exact (intText_bytes _).1
  · intro x c hc; rw [hz] at hc; exact (bytes_stop c ((intText_bytes _).2 c hc)).1
  · intro x hx
    rw [hz] at hx
    exact (bytes_stop 78 ((intText_bytes (z x)).2 78 (List.mem_of_mem_head? hx))).2 rfl

private theorem notN_of {T : Type} [TextTraits T] {c : UInt8} (hc : c ≠ 78) (f : T → List UInt8)
    (h : ∀ x : T, TextTraits.toText x = c :: f x) : NotN T := by
  intro x hx
  rw [h] at hx
  simp at hx
  exact hc hx

private theorem entry_inj {K V : Type} [TextTraits K] [TextTraits V] (hs : Separable K TextTraits.toText)
    (hi : ∀ x y : K, (TextTraits.toText x : List UInt8) = TextTraits.toText y → x = y)
    (hi' : ∀ x y : V, (TextTraits.toText x : List UInt8) = TextTraits.toText y → x = y) (x y : K × V)
    (e : entry x = entry y) : x = y := by
  obtain ⟨a, b⟩ := x
  obtain ⟨c, d⟩ := y
  obtain ⟨h1, h2⟩ := hs.splits a c _ _ (stops_cons (by decide) _) (stops_cons (by decide) _) e
  simp only [List.cons.injEq, true_and] at h2
  rw [hi a c h1, hi' b d h2]

mutual
private theorem plain_good : ∀ {o : Bool} {T : Type} {inst : TextTraits T}, Plain o T → Good T ∧ (o = false → NotN T)
  | _, _, _, .bool => by
    refine ⟨⟨separable_of ?_ ?_, inj_of_round_trip C48_round_trip.1⟩, fun _ => ?_⟩
    · intro x; cases x <;> decide
    · intro x; cases x <;> decide
    · intro x; cases x <;> decide
  | _, _, _, .int8 => ((int_good (fun x : Int8 => x.toInt) (fun _ => rfl) C48_round_trip.2.1).imp id fun h _ => h)
  | _, _, _, .int16 => ((int_good (fun x : Int16 => x.toInt) (fun _ => rfl) C48_round_trip.2.2.1).imp id fun h _ => h)
  | _, _, _, .int32 => ((int_good (fun x : Int32 => x.toInt) (fun _ => rfl) C48_round_trip.2.2.2.1).imp id fun h _ => h)
  | _, _, _, .int64 => ((int_good (fun x : Int64 => x.toInt) (fun _ => rfl) C48_round_trip.2.2.2.2.1).imp id fun h _ => h)
  | _, _, _, .uint8 => ((int_good (fun x : UInt8 => x.toNat) (fun _ => rfl) C48_round_trip.2.2.2.2.2.1).imp id fun h _ => h)
  | _, _, _, .uint16 =>
    ((int_good (fun x : UInt16 => x.toNat) (fun _ => rfl) C48_round_trip.2.2.2.2.2.2.1).imp id fun h _ => h)
  | _, _, _, .uint32 =>
    ((int_good (fun x : UInt32 => x.toNat) (fun _ => rfl) C48_round_trip.2.2.2.2.2.2.2.1).imp id fun h _ => h)
  | _, _, _, .uint64 =>
    ((int_good (fun x : UInt64 => x.toNat) (fun _ => rfl) C48_round_trip.2.2.2.2.2.2.2.2).imp id fun h _ => h)
  | _, _, _, @Plain.optional T i h => by
    obtain ⟨⟨hs, hi⟩, hn⟩ := plain_good h
    have hn := hn rfl
    have hnull : ∀ (x : T) r s, TextTraits.toText x ++ r = [78, 85, 76, 76] ++ s → False := by
      intro x r s e
      obtain ⟨c, t, h1, _⟩ := hs.starts x
      rw [h1] at e
      simp only [List.cons_append, List.cons.injEq] at e
      exact hn x (by rw [h1, e.1]; rfl)
    refine ⟨⟨⟨?_, ?_⟩, ?_⟩, fun h => by cases h⟩
    · rintro (_ | x)
      · exact ⟨78, _, rfl, by decide⟩
      · exact hs.starts x
    · rintro (_ | x) (_ | y) r s hr hs' e
      · exact ⟨rfl, List.append_cancel_left e⟩
      · exact (hnull y s r e.symm).elim
      · exact (hnull x r s e).elim
      · exact hs.splits x y r s hr hs' e
    · rintro (_ | x) (_ | y) e
      · rfl
      · exact (hnull y [] [] (congrArg (· ++ []) e.symm)).elim
      · exact (hnull x [] [] (congrArg (· ++ []) e)).elim
      · exact congrArg some (hi x y e)
  | _, _, _, @Plain.vector _ T i h => by
    obtain ⟨⟨hs, hi⟩, -⟩ := plain_good h
    exact ⟨bracket_good (C := List T) hs hi id (fun _ _ h => h) (opening := 91) (closing := 93) (by decide)
      (by decide) (by decide) (fun x => bufferText_eq x), fun _ => notN_of (by decide) _ (fun x => bufferText_eq x)⟩
  | _, _, _, @Plain.array _ T n i h => by
    obtain ⟨⟨hs, hi⟩, -⟩ := plain_good h
    exact ⟨bracket_good (C := Arr T n) hs hi Arr.items (fun ⟨_, _⟩ ⟨_, _⟩ h => by cases h; rfl) (opening := 91)
      (closing := 93) (by decide) (by decide) (by decide) (fun x => bufferText_eq x.items),
      fun _ => notN_of (by decide) _ (fun x => bufferText_eq x.items)⟩
  | _, _, _, @Plain.map _ _ K V i0 i1 i2 hk hv => by
    obtain ⟨⟨hs, hi⟩, -⟩ := plain_good hk
    obtain ⟨⟨hs', hi'⟩, -⟩ := plain_good hv
    exact ⟨bracket_good (C := OMap K V) (entry_separable hs hs') (entry_inj hs hi hi') OMap.entries
      (fun ⟨_, _⟩ ⟨_, _⟩ h => by cases h; rfl) (opening := 123) (closing := 125) (by decide) (by decide) (by decide)
      (fun x => mapText_eq x.entries), fun _ => notN_of (by decide) _ (fun x => mapText_eq x.entries)⟩
  | _, _, _, @Plain.unorderedMap _ _ K V i1 i2 hk hv => by
    obtain ⟨⟨hs, hi⟩, -⟩ := plain_good hk
    obtain ⟨⟨hs', hi'⟩, -⟩ := plain_good hv
    exact ⟨bracket_good (C := UMap K V) (entry_separable hs hs') (entry_inj hs hi hi') UMap.entries
      (fun ⟨_, _⟩ ⟨_, _⟩ h => by cases h; rfl) (opening := 123) (closing := 125) (by decide) (by decide) (by decide)
      (fun x => mapText_eq x.entries), fun _ => notN_of (by decide) _ (fun x => mapText_eq x.entries)⟩
  | _, _, _, @Plain.unorderedSet _ K i h => by
    obtain ⟨⟨hs, hi⟩, -⟩ := plain_good h
    exact ⟨bracket_good (C := USet K) hs hi USet.elems (fun ⟨_, _⟩ ⟨_, _⟩ h => by cases h; rfl) (opening := 123)
      (closing := 125) (by decide) (by decide) (by decide) (fun x => setText_eq x.elems),
      fun _ => notN_of (by decide) _ (fun x => setText_eq x.elems)⟩
  | _, _, _, @Plain.tuple A i h => by
    obtain ⟨hs, hp, hi⟩ := fields_good h
    have e : ∀ t : Tuple A, TextTraits.toText t = 40 :: (Fields.helper t.fields ++ [41]) := fun t => rfl
    refine ⟨⟨⟨fun t => ⟨40, _, e t, by decide⟩, ?_⟩, ?_⟩, fun _ => notN_of (by decide) _ e⟩
    · intro x y r s _ _ h
      rw [e, e] at h ⊢
      simp only [List.cons_append, List.append_assoc, List.nil_append, List.cons.injEq, true_and] at h
      obtain ⟨h1, h2⟩ := hp _ _ r s h
      exact ⟨by rw [h1], h2⟩
    · rintro ⟨x⟩ ⟨y⟩ h
      rw [e, e] at h
      simp only [List.cons.injEq, true_and] at h
      rw [hi x y (List.append_cancel_right h)]
private theorem fields_good : ∀ {A : Type} {inst : Fields A}, PlainFields A → GoodFields A
  | _, _, @PlainFields.last _ T i h => by
    obtain ⟨⟨hs, hi⟩, -⟩ := plain_good h
    refine ⟨fun a => hs.starts a.value, ?_, ?_⟩
    · intro a b r s e
      obtain ⟨h1, h2⟩ := hs.splits a.value b.value _ _ (stops_cons (by decide) r) (stops_cons (by decide) s) e
      simp only [List.cons.injEq, true_and] at h2
      exact ⟨h1, h2⟩
    · rintro ⟨a⟩ ⟨b⟩ e
      rw [hi a b e]
  | _, _, @PlainFields.before _ T A i1 i2 h hA => by
    obtain ⟨⟨hs, hi⟩, -⟩ := plain_good h
    obtain ⟨gs, gp, gi⟩ := fields_good hA
    have e : ∀ a : T × A, Fields.helper a = TextTraits.toText a.1 ++ 44 :: Fields.helper a.2 := fun _ => rfl
    have key : ∀ (a b : T × A) r s, Fields.helper a ++ r = Fields.helper b ++ s → TextTraits.toText a.1 = TextTraits.toText b.1 ∧
        (Fields.helper a.2 : List UInt8) ++ r = Fields.helper b.2 ++ s := by
      intro a b r s h
      rw [e, e, List.append_assoc, List.append_assoc] at h
      obtain ⟨h1, h2⟩ := hs.splits a.1 b.1 _ _ (stops_cons (by decide) _) (stops_cons (by decide) _) h
      simp only [List.cons_append, List.cons.injEq, true_and] at h2
      exact ⟨h1, h2⟩
    refine ⟨fun a => ?_, ?_, ?_⟩
    · obtain ⟨c, t, h1, h2⟩ := hs.starts a.1
      exact ⟨c, t ++ 44 :: Fields.helper a.2, by rw [e, h1]; rfl, h2⟩
    · intro a b r s h
      obtain ⟨h1, h2⟩ := key a b _ _ h
      obtain ⟨h3, h4⟩ := gp _ _ r s h2
      exact ⟨by rw [e, e, h1, h3], h4⟩
    · rintro ⟨a, a'⟩ ⟨b, b'⟩ h
      obtain ⟨h1, h2⟩ := key _ _ [] [] (congrArg (· ++ []) h)
      rw [hi a b h1, gi a' b' (List.append_cancel_right h2)]
end

/-- **C89 (texts identify values)** Different values of a type built from integers, booleans, optional values, vectors,
arrays, maps, sets and tuples have different texts. -/
theorem C89_identifies {o : Bool} {T : Type} [TextTraits T] (h : Plain o T) : Identifies T := (plain_good h).1.inj

/-- A type to which C89_identifies applies: `std::map<bool, std::vector<std::tuple<bool,
nonstd::optional<std::uint8_t>>>>`. -/
example : Identifies (OMap Bool (List (Tuple (Bool × Last (Option UInt8))))) :=
  C89_identifies (.map .bool (.vector (.tuple (.before .bool (.last (.optional .uint8))))))

/-- "{False:[],True:[(True,7),(False,NULL)]}" -/
example : TextTraits.toText (⟨[(false, []), (true, [⟨(true, ⟨some 7⟩)⟩, ⟨(false, ⟨none⟩)⟩])], by decide⟩ :
      OMap Bool (List (Tuple (Bool × Last (Option UInt8))))) =
    "{False:[],True:[(True,7),(False,NULL)]}".toUTF8.toList := by decide +kernel

private theorem float_stop : ∀ c : UInt8, isDigit c = true ∨ c = 45 ∨ c = 46 ∨ c = 78 ∨ c = 97 ∨ c = 105 ∨ c = 110 ∨ c = 102 →
    isStop c = false :=
  fun c => FloatText.byte_all (P := fun c => isDigit c = true ∨ c = 45 ∨ c = 46 ∨ c = 78 ∨ c = 97 ∨ c = 105 ∨ c = 110 ∨
    c = 102 → isStop c = false) (by decide +kernel) c

private theorem sixDigits_digits (n : Nat) : ∀ c ∈ FloatText.sixDigits n, isDigit c = true := by
  have key : ∀ n < 10, isDigit (48 + UInt8.ofNat n) = true := by decide
  intro c hc
  simp only [FloatText.sixDigits, List.mem_map, List.mem_cons, List.not_mem_nil, or_false] at hc
  rcases hc with h | h | h | h | h | h <;> rw [h] <;> exact key _ (Nat.mod_lt _ (by decide))

private theorem float_separable (F : FloatText.Fmt) {T : Type} (bits : T → Nat) :
    Separable T (fun x => F.toText (bits x)) := by
  have fixed : ∀ n d, ∀ c ∈ FloatText.fixedText n d, isStop c = false := by
    intro n d c hc
    unfold FloatText.fixedText at hc
    rcases List.mem_append.1 hc with h | h
    · exact float_stop c (.inl ((natText_spec _).2.1 c h))
    · rcases List.mem_cons.1 h with h | h
      · exact float_stop c (.inr (.inr (.inl h)))
      · exact float_stop c (.inl (sixDigits_digits _ c h))
  refine separable_of ?_ ?_
  · intro x
    dsimp only [FloatText.Fmt.toText]
    split
    · simp
    · refine fun h => ?_
      have h := (List.append_eq_nil_iff.1 h).2
      revert h
      split
      · simp
      · unfold FloatText.fixedText; simp
  · intro x c hc
    dsimp only [FloatText.Fmt.toText] at hc
    split at hc
    · revert c; decide
    · rcases List.mem_append.1 hc with h | h
      · split at h
        · clear hc; revert c; decide
        · cases h
      · split at h
        · clear hc; revert c; decide
        · exact fixed _ _ c h

/-- **C89 (floating point elements)** If two vectors of floating point numbers have the same text, then they have the
same number of elements, and the elements at the same places have the same texts. (What the text of a number tells of
the number is C67.) -/
theorem C89_float_vectors :
    (∀ v w : List F32, (TextTraits.toText v : List UInt8) = TextTraits.toText w →
      v.map TextTraits.toText = w.map (TextTraits.toText : F32 → List UInt8)) ∧
    (∀ v w : List F64, (TextTraits.toText v : List UInt8) = TextTraits.toText w →
      v.map TextTraits.toText = w.map (TextTraits.toText : F64 → List UInt8)) := by
  constructor
  · intro v w h
    rw [show (TextTraits.toText v : List UInt8) = _ from bufferText_eq v,
      show (TextTraits.toText w : List UInt8) = _ from bufferText_eq w] at h
    simp only [within, List.cons_append, List.cons.injEq, true_and] at h
    exact (commas_split (float_separable FloatText.single (fun x : F32 => x.bits.toNat)) (by decide) (by decide) v w [] []
      h).1
  · intro v w h
    rw [show (TextTraits.toText v : List UInt8) = _ from bufferText_eq v,
      show (TextTraits.toText w : List UInt8) = _ from bufferText_eq w] at h
    simp only [within, List.cons_append, List.cons.injEq, true_and] at h
    exact (commas_split (float_separable FloatText.double (fun x : F64 => x.bits.toNat)) (by decide) (by decide) v w [] []
      h).1

/-- **C89 (refuted)** The texts do not identify vectors of strings ("[]" for no string and for one empty string,
"[a,b]" for one and for two strings), vectors of floating point numbers ("[0.000000]" for 0 and for the smallest
positive number), and matrices (the text does not tell the
number of rows). And the text of an unordered set depends on more than its elements: two sets with the same elements can have
different texts. -/
theorem C89_refuted :
    ¬ Identifies (List Str) ∧ ¬ Identifies (List F64) ∧ ¬ Identifies (List F32) ∧
    (∀ cm, ¬ Identifies (Mat Int32 cm)) ∧
    (∃ s t : USet Int32, (∀ x, x ∈ s.elems ↔ x ∈ t.elems) ∧
      (TextTraits.toText s : List UInt8) ≠ TextTraits.toText t) := by
  refine ⟨fun h => ?_, fun h => ?_, fun h => ?_, fun cm h => ?_, ?_⟩
  · have := h [] [⟨[]⟩] rfl
    cases this
  · have := h [⟨0⟩] [⟨1⟩] (by decide +kernel)
    revert this; decide
  · have := h [⟨0⟩] [⟨1⟩] (by decide +kernel)
    revert this; decide
  · have := h ⟨2, [[1, 2]], by simp⟩ ⟨1, [[1], [2]], by simp⟩ rfl
    have := congrArg Mat.inner this
    cases this
  · exact ⟨⟨[1, 2], by simp⟩, ⟨[2, 1], by simp⟩, fun x => by simp [or_comm], by decide +kernel⟩

/-- **C89 (strings with commas)** -/
theorem C89_strings : (TextTraits.toText [(⟨[97, 44, 98]⟩ : Str)] : List UInt8) = TextTraits.toText [(⟨[97]⟩ : Str), ⟨[98]⟩] :=
  rfl

/-- **C89 (not read back)** The conversion of a text to a vector, an array, a matrix, a map, a set or a tuple throws
`std::logic_error`, whatever the text is: none of the texts can be read back. -/
theorem C89_not_read {K V A : Type} [LinearOrder K] [TextTraits K] [TextTraits V] [Fields A] (n : Nat) (cm : Bool)
    (s : List UInt8) :
    TextTraits.fromText (T := List V) s = .error .logicError ∧ TextTraits.fromText (T := Arr V n) s = .error .logicError ∧
    TextTraits.fromText (T := Mat V cm) s = .error .logicError ∧ TextTraits.fromText (T := OMap K V) s = .error .logicError ∧
    TextTraits.fromText (T := UMap K V) s = .error .logicError ∧ TextTraits.fromText (T := USet K) s = .error .logicError ∧
    TextTraits.fromText (T := Tuple A) s = .error .logicError :=
  ⟨rfl, rfl, rfl, rfl, rfl, rfl, rfl⟩

end Feat.ContainerText
