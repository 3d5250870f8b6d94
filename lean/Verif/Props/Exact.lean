import Verif.Lemmas.DecodeExact
import Verif.Lemmas.Slice
import Verif.Lemmas.Matched
import Verif.Lemmas.Feed
import Verif.Spec.Requiring
import Verif.Props.Buffers
/-!
# Properties of `decode_exact` (C42) and of I/O errors in `decode_exact` and `encode_all` (C49)
-/
namespace Bytecodec.Props
open Spec

variable {σ τ α ρ ω : Type}

/-! ## C42: `decode_exact` -/

private theorem slice_exact {D : Decoder σ α} {R : Reader ρ} {rest : ρ → Bytes} (hR : Delivers R rest) {s s' : σ}
    {r r' : ρ} {y : Res α} (h : decodeExact D R s r = some (y, s', r')) :
    (rest r').length ≤ (rest r).length ∧
    (∀ c x, y = .ok x → (rest r).length - (rest r').length ≤ c →
      decodeExact (sliceDecoder D) R ⟨s, c⟩ r = some (.ok x, ⟨s', c - ((rest r).length - (rest r').length)⟩, r')) ∧
    ∀ c x, y = .ok x → c < (rest r).length - (rest r').length →
      ∀ x' t q, decodeExact (sliceDecoder D) R ⟨s, c⟩ r ≠ some (.ok x', t, q) := by
  have hlen : ∀ {s : σ} {r bs r'}, exactRead R (D.requiring s) r = (.data bs, r') →
      (rest r).length = bs.length + (rest r').length := by
    intro s r bs r' h
    rw [exactRead] at h
    split at h
    · next hz =>
      obtain ⟨bs', h1, _, h2, _⟩ := hR.read r (readSize (D.requiring s)) (by omega)
      rw [h] at h1 h2
      cases h1
      rw [h2, List.length_append]
    · cases h; simp
  have hmono : ∀ {s : σ} {r k r'}, exactRead R (D.requiring s) r = (.error k, r') → False := by
    intro s r k r' h
    rw [exactRead] at h
    split at h
    · next hz =>
      obtain ⟨bs', h1, _⟩ := hR.read r (readSize (D.requiring s)) (by omega)
      rw [h] at h1
      cases h1
    · cases h
  have hback : ∀ b : Bool, (Eos.new b).back 0 = .ok (Eos.new b) := by decide
  have hfull : ∀ {s s' : σ} {bs : Bytes} {b : Bool} {c : Nat}, bs.length ≤ c →
      D.decode s bs (Eos.new b) = (.ok bs.length, s') →
      (sliceDecoder D).decode ⟨s, c⟩ bs (Eos.new b) = (.ok bs.length, ⟨s', c - bs.length⟩) := by
    intro s s' bs b c hc hd
    simp only [sliceDecoder, Nat.min_eq_left hc, Nat.sub_self, hback, List.take_length, hd, Res.step,
      if_neg (Nat.not_lt.mpr hc)]
  have hshort : ∀ {s s' : σ} {r : ρ} {bs : Bytes} {r' : ρ} {c : Nat}, c < bs.length → bs.length ≤ 1024 →
      exactRead R (D.requiring s) r = (.data bs, r') →
      ∀ x' t q, decodeExact (sliceDecoder D) R ⟨s, c⟩ r ≠ some (.ok x', t, q) := by
    intro s s' r bs r' c hc hb hr x' t q h
    rw [exactRead] at hr
    rw [decodeExact_eq] at h
    have hq : (sliceDecoder D).requiring ⟨s, c⟩ = D.requiring s := rfl
    simp only [hq, hr, if_neg (Nat.not_lt.mpr hb)] at h
    have key : ∀ e : Eos, ((sliceDecoder D).decode ⟨s, c⟩ bs e).1 ≠ .ok bs.length := by
      intro e he
      rcases hd : (sliceDecoder D).decode ⟨s, c⟩ bs e with ⟨z, t'⟩
      rw [hd] at he
      simp only at he
      subst he
      obtain ⟨_, _, _, h3, _⟩ := slice_decode_ok hd
      simp only at h3
      omega
    split at h
    · next consumed t' hd =>
      have := key (Eos.new (readSize (D.requiring s) ≠ 0 && bs.isEmpty))
      rw [hd] at this
      rw [if_pos (by intro h; subst h; exact this rfl)] at h
      cases h
    all_goals cases h
  refine decodeExact_induct (D := D) (R := R) (P := fun s r y s' r' => (rest r').length ≤ (rest r).length ∧
    (∀ c x, y = .ok x → (rest r).length - (rest r').length ≤ c →
      decodeExact (sliceDecoder D) R ⟨s, c⟩ r = some (.ok x, ⟨s', c - ((rest r).length - (rest r').length)⟩, r')) ∧
    ∀ c x, y = .ok x → c < (rest r).length - (rest r').length →
      ∀ x' t q, decodeExact (sliceDecoder D) R ⟨s, c⟩ r ≠ some (.ok x', t, q)) ?_ ?_ ?_ ?_ h
  · intro s r k r' h
    exact (hmono h).elim
  · intro s r bs r' y s' h1 h2 _
    have := hlen h1
    exact ⟨by omega, fun _ x hx => absurd hx (h2 x), fun _ x hx => absurd hx (h2 x)⟩
  · intro s r bs r' s' h1 hb h2 h3
    have hl := hlen h1
    have e : (rest r).length - (rest r').length = bs.length := by omega
    rw [e]
    refine ⟨by omega, fun c x hx hc => ?_, fun c x hx hc => hshort (s' := s') hc hb h1⟩
    rw [exactRead] at h1
    rw [decodeExact_eq]
    have hq : (sliceDecoder D).requiring ⟨s, c⟩ = D.requiring s := rfl
    have hi : (sliceDecoder D).isIdle ⟨s', c - bs.length⟩ = true := h3
    simp only [hq, h1, if_neg (Nat.not_lt.mpr hb), hfull hc h2, ne_eq, not_true_eq_false, if_false, hi, if_true,
      slice_finish, hx]
  · intro s r bs r' s' y t q h1 hb h2 h3 ih
    have hl := hlen h1
    obtain ⟨i1, i2, i3⟩ := ih
    have hq : ∀ c, (sliceDecoder D).requiring ⟨s, c⟩ = D.requiring s := fun _ => rfl
    have hi : ∀ c, (sliceDecoder D).isIdle ⟨s', c⟩ = false := fun _ => h3
    have hstep : ∀ c, bs.length ≤ c →
        decodeExact (sliceDecoder D) R ⟨s, c⟩ r = decodeExact (sliceDecoder D) R ⟨s', c - bs.length⟩ r' := by
      intro c hc
      have h1' := h1
      rw [exactRead] at h1'
      rw [decodeExact_eq]
      simp only [hq, h1', if_neg (Nat.not_lt.mpr hb), hfull hc h2, ne_eq, not_true_eq_false, if_false, hi,
        Bool.false_eq_true]
    refine ⟨by omega, fun c x hx hc => ?_, fun c x hx hc => ?_⟩
    · rw [hstep c (by omega), i2 (c - bs.length) x hx (by omega)]
      have : c - bs.length - ((rest r').length - (rest q).length) = c - ((rest r).length - (rest q).length) := by omega
      rw [this]
    · by_cases hcb : bs.length ≤ c
      · rw [hstep c hcb]
        exact i3 (c - bs.length) x hx (by omega)
      · exact hshort (s' := s') (by omega) hb h1

/-- C42: whatever sizes of pieces the reader delivers, if the stream starts with the bytes `c` of which
`decode` calls would take the first `n` to produce an item, then `decode_exact` terminates, returns this
item, and leaves the reader right after these `n` bytes. (Decoders whose items end with the stream,
`p = false`: the stream is just `c`.) The decoder can then be used in the same way for the next item.
Missing: the decoders that are not `Exactable` (`C42_collectN_hangs_fails`,
`C42_collect_hangs_fails`); for `slice`, which may have to be suspended half-way, see `C42_slice`. -/
theorem C42_exact_partial {w p : Bool} {D : Decoder σ α} {s₀ : σ} (hD : Exactable w p D s₀)
    {R : Reader ρ} {rest : ρ → Bytes} (hR : Delivers R rest) :
    ∃ G : σ → Prop, G s₀ ∧ ∀ s, G s → ∀ {r c tail e n x s'}, rest r = c ++ tail →
      feed D s [(c, e)] = some (n, x, s') → (p = false → e = Eos.new true ∧ tail = []) →
      ∃ r', decodeExact D R s r = some (.ok x, s', r') ∧ rest r' = c.drop n ++ tail ∧ G s' := by
  refine ⟨ExFresh w p D, exactable_fresh hD, ?_⟩
  intro s hs r c tail e n x s' hrest hf hp
  obtain ⟨t, hi⟩ := feed_one.1 hf
  have hm := (steady w p D).fresh hs
  obtain ⟨r', h1, h2⟩ := decodeExact_item (steady w p D) hR _ (Nat.lt_succ_self _) hm hi hrest hp
  exact ⟨r', h1, h2, ((steady w p D).item_again hm hi).1⟩

/-- C42: the readers of the examples deliver. -/
theorem C42_pieces {m : Nat} (hm : 0 < m) : Delivers (pieces m) id := by
  constructor
  intro r n hn
  refine ⟨_, rfl, ?_, ?_, ?_⟩
  · simp only [List.length_take]; omega
  · simp [pieces]
  · intro h
    cases r with
    | nil => rfl
    | cons a r =>
      have := congrArg List.length h
      simp only [List.length_take, List.length_cons, List.length_nil] at this
      omega

/-- A length-prefixed frame. -/
private def exFrame := andThenDecoder (fixDecoder (fun b => (b.headD 0).toNat))
  (lengthDecoder remainingBytesDecoder) (fun n => LengthState.new RemainingState.new n)

private theorem exFrame_exact : Exactable true true exFrame (fixInit 1, none) :=
  .andThen _ (.number _ _ _ _ (by decide)) fun x => .length false _ x (by simp) (.remaining true)

/-- Two frames and a rest, from a reader that hands out one byte at a time. -/
example : ∃ s₁ s₂ r, decodeExact exFrame (pieces 1) (fixInit 1, none) [2, 7, 8, 1, 9, 5] = some (.ok [7, 8], s₁, [1, 9, 5]) ∧
    decodeExact exFrame (pieces 1) s₁ [1, 9, 5] = some (.ok [9], s₂, r) ∧ r = [5] := by
  obtain ⟨G, h0, h⟩ := C42_exact_partial exFrame_exact (C42_pieces (m := 1) (by decide))
  obtain ⟨r1, a1, a2, a3⟩ := h _ h0 (r := [2, 7, 8, 1, 9, 5]) (c := [2, 7, 8, 1, 9, 5]) (tail := [])
    (e := Eos.new false) (n := 3) (x := [7, 8]) (s' := (⟨[2], 0⟩, none)) rfl (feed_one.2 ⟨_, rfl, rfl⟩) (by simp)
  obtain ⟨r2, b1, b2, _⟩ := h _ a3 (r := [1, 9, 5]) (c := [1, 9, 5]) (tail := [])
    (e := Eos.new false) (n := 2) (x := [9]) (s' := (⟨[1], 0⟩, none)) rfl (feed_one.2 ⟨_, rfl, rfl⟩) (by simp)
  simp only [id, List.drop, List.append_nil] at a2 b2
  subst a2
  exact ⟨_, _, _, a1, b1, b2⟩

/-- C42 from the sender's side: if the stream starts with the encodings of some messages, one after the
other, then that many calls of `decode_exact` return these messages and leave the reader right after
them. -/
theorem C42_messages_partial {strict delim again w : Bool} {E : Encoder τ α} {sE : τ} {D : Decoder σ α} {sD : σ}
    {dom : α → Prop} {enc : α → Except ErrorKind Bytes} (hM : Matched strict delim again E sE D sD dom enc)
    (hD : Exactable w delim D sD) {R : Reader ρ} {rest : ρ → Bytes} (hR : Delivers R rest)
    {msgs : List (α × Bytes)} (hm : ∀ m ∈ msgs, dom m.1 ∧ enc m.1 = .ok m.2)
    (ha : delim = true ∧ again = true ∨ msgs.length ≤ 1) {r : ρ} {tail : Bytes}
    (hr : rest r = (msgs.flatMap Prod.snd) ++ tail)
    (ht : delim = true ∨ tail = [] ∧ (rest r).length < 2 ^ 64) :
    ∃ s' r', readItems D R msgs.length sD r = some (msgs.map Prod.fst, s', r') ∧ rest r' = tail := by
  obtain ⟨F, hF, hreads⟩ := matched_reads hM
  obtain ⟨G, hG, hex⟩ := C42_exact_partial hD hR
  have one : ∀ {s r x bs tail'}, F s → G s → dom x → enc x = .ok bs → rest r = bs ++ tail' →
      (delim = true ∨ tail' = [] ∧ (rest r).length < 2 ^ 64) →
      ∃ s' r', decodeExact D R s r = some (.ok x, s', r') ∧ rest r' = tail' ∧ G s' ∧ (again = true → F s') := by
    intro s r x bs tail' hFs hGs hx hb hr ht
    have : ∃ e, EosSane e (bs ++ []).length ∧ (delim = true ∨ ([] : Bytes) = [] ∧ e.isReached = true) ∧
        (delim = false → e = Eos.new true ∧ tail' = []) := by
      rcases ht with h | ⟨h1, h2⟩
      · exact ⟨Eos.new false, .newFalse, .inl h, by simp [h]⟩
      · subst h1
        rw [hr] at h2
        exact ⟨Eos.new true, .new _ h2, .inr ⟨rfl, rfl⟩, fun _ => ⟨rfl, rfl⟩⟩
    obtain ⟨e, g1, g2, g3⟩ := this
    obtain ⟨s', h1, h2⟩ := hreads.item (tail := []) (e := e) hFs ⟨hx, hb⟩ g1 g2
    rw [List.append_nil] at h1
    obtain ⟨r', k1, k2, k3⟩ := hex s hGs hr h1 g3
    rw [List.drop_length, List.nil_append] at k2
    exact ⟨s', r', k1, k2, k3, h2⟩
  have main : ∀ (msgs : List (α × Bytes)) {s r}, F s → G s → (∀ m ∈ msgs, dom m.1 ∧ enc m.1 = .ok m.2) →
      (delim = true ∧ again = true ∨ msgs.length ≤ 1) → rest r = (msgs.flatMap Prod.snd) ++ tail →
      (delim = true ∨ tail = [] ∧ (rest r).length < 2 ^ 64) →
      ∃ s' r', readItems D R msgs.length s r = some (msgs.map Prod.fst, s', r') ∧ rest r' = tail := by
    intro msgs
    induction msgs with
    | nil => intro s r _ _ _ _ hr _; exact ⟨s, r, rfl, by simpa using hr⟩
    | cons m msgs ih =>
      intro s r hFs hGs hm ha hr ht
      simp only [List.flatMap_cons, List.append_assoc] at hr
      have hm1 := hm m (by simp)
      rcases ha with ⟨hd, hag⟩ | hl
      · obtain ⟨s1, r1, k1, k2, k3, k4⟩ := one hFs hGs hm1.1 hm1.2 hr (.inl hd)
        obtain ⟨s2, r2, l1, l2⟩ := ih (k4 hag) k3 (fun m h => hm m (by simp [h])) (.inl ⟨hd, hag⟩) k2 (.inl hd)
        refine ⟨s2, r2, ?_, l2⟩
        simp only [List.length_cons, readItems, k1, l1, Option.map_some, List.map_cons]
      · obtain rfl : msgs = [] := by
          cases msgs with
          | nil => rfl
          | cons _ _ => simp at hl
        simp only [List.flatMap_nil, List.nil_append] at hr
        obtain ⟨s1, r1, k1, k2, _, _⟩ := one hFs hGs hm1.1 hm1.2 hr ht
        refine ⟨s1, r1, ?_, k2⟩
        simp only [List.length_cons, List.length_nil, readItems, k1, Option.map_some, List.map_cons, List.map_nil]
  exact main msgs hF hG hm ha hr ht

/-- Arrays of two bytes, three of them, and a rest, in pieces of one byte. -/
example : ∃ s' r', readItems copyableBytesDecoder (pieces 1) 3 (.new [0, 0]) [1, 2, 3, 4, 5, 6, 7] =
    some ([[1, 2], [3, 4], [5, 6]], s', r') ∧ r' = [7] :=
  C42_messages_partial (.copyable false [0, 0]) (.copyable true true [0, 0] (by simp))
    (C42_pieces (m := 1) (by decide)) (msgs := [([1, 2], [1, 2]), ([3, 4], [3, 4]), ([5, 6], [5, 6])])
    (tail := [7]) (by simp) (.inl ⟨rfl, rfl⟩) rfl (.inl rfl)

/-- C42, for any decoder whatsoever and any reader: if `decode_exact` returns an item, then the decoder
took every byte that was read from the reader, in the order in which they were read, was idle, and gave
this item. -/
theorem C42_nothing_lost {D : Decoder σ α} {R : Reader ρ} {s s' : σ} {r r' : ρ} {log log' : List ReadRes} {x : α}
    (h : decodeExact D (loggedReader R) s (r, log) = some (.ok x, s', (r', log'))) :
    ∃ as t, log' = log ++ as ∧ Swallows D s (delivered as) t ∧ D.isIdle t = true ∧ D.finish t = (.ok x, s') := by
  have hread : ∀ {c : ByteCount} {r : ρ × List ReadRes} {a r'}, exactRead (loggedReader R) c r = (a, r') →
      ∃ as, r'.2 = r.2 ++ as ∧ ∀ bs, a = .data bs → delivered as = bs := by
    intro c r a r' h
    rw [exactRead] at h
    split at h
    · cases h
      refine ⟨_, rfl, fun bs hb => ?_⟩
      have hb : (R.read r.1 (readSize c)).1 = .data bs := hb
      simp [delivered, hb, ReadRes.bytes]
    · cases h
      exact ⟨[], by simp, fun bs hb => by cases hb; rfl⟩
  refine decodeExact_induct (D := D) (R := loggedReader R)
    (P := fun s r y s' r' => ∀ x, y = .ok x → ∃ as t, r'.2 = r.2 ++ as ∧
      Swallows D s (delivered as) t ∧ D.isIdle t = true ∧ D.finish t = (.ok x, s')) ?_ ?_ ?_ ?_ h x rfl
  · intro s r k r' _ x hx; cases hx
  · intro s r bs r' y s' _ hy _ x hx; exact absurd hx (hy x)
  · intro s r bs r' s' hr _ hd hi x hx
    obtain ⟨as, h1, h2⟩ := hread hr
    refine ⟨as, s', h1, ?_, hi, Prod.ext hx rfl⟩
    rw [h2 bs rfl]
    have := Swallows.cons bs _ hd (Swallows.nil s')
    rwa [List.append_nil] at this
  · intro s r bs r' s' y t q hr _ hd _ ih x hx
    obtain ⟨as, h1, h2⟩ := hread hr
    obtain ⟨as', u, k1, k2, k3⟩ := ih x hx
    refine ⟨as ++ as', u, by rw [k1, h1, List.append_assoc], ?_, k3⟩
    have : delivered (as ++ as') = bs ++ delivered as' := by
      rw [← h2 bs rfl]; simp [delivered]
    rw [this]
    exact Swallows.cons bs _ hd k2

/-- The two-byte array, from a reader that delivers one byte at a time. -/
example : ∃ s' r' log', decodeExact copyableBytesDecoder (loggedReader (pieces 1)) (.new [0, 0]) ([1, 2, 3], []) =
    some (.ok [1, 2], s', (r', log')) ∧ delivered log' = [1, 2] := by
  refine ⟨⟨[1, 2], 0⟩, [3], [.data [1], .data [2]], ?_, rfl⟩
  have h1 := decodeExact_read (D := copyableBytesDecoder) (R := loggedReader (pieces 1)) (s := .new [0, 0])
    (r := ([1, 2, 3], [])) (bs := [1]) (r' := ([2, 3], [.data [1]])) (s1 := ⟨[1, 0], 1⟩)
    (by decide) rfl (by decide) rfl
  have h2 := decodeExact_read (D := copyableBytesDecoder) (R := loggedReader (pieces 1)) (s := ⟨[1, 0], 1⟩)
    (r := ([2, 3], [.data [1]])) (bs := [2]) (r' := ([3], [.data [1], .data [2]])) (s1 := ⟨[1, 2], 2⟩)
    (by decide) rfl (by decide) rfl
  rw [h1, if_neg (by decide), h2]
  rfl

/-- C42 for sliced decoders: if `decode_exact` with the inner decoder returns an item, and the allowance is at least the
number of bytes this takes from the reader, then `decode_exact` with the sliced decoder returns the same item,
leaves the reader in the same place, and has used up exactly that much of the allowance. -/
theorem C42_slice {D : Decoder σ α} {R : Reader ρ} {rest : ρ → Bytes} (hR : Delivers R rest) {s s' : σ} {r r' : ρ}
    {x : α} (h : decodeExact D R s r = some (.ok x, s', r')) {c : Nat} (hc : (rest r).length - (rest r').length ≤ c) :
    decodeExact (sliceDecoder D) R ⟨s, c⟩ r =
      some (.ok x, ⟨s', c - ((rest r).length - (rest r').length)⟩, r') := by
  exact (slice_exact hR h).2.1 c x rfl hc

/-- C42 for sliced decoders: if the allowance is smaller, then no item is returned. -/
theorem C42_slice_suspended {D : Decoder σ α} {R : Reader ρ} {rest : ρ → Bytes} (hR : Delivers R rest) {s s' : σ}
    {r r' : ρ} {x : α} (h : decodeExact D R s r = some (.ok x, s', r')) {c : Nat}
    (hc : c < (rest r).length - (rest r').length) (y : α) (t : SliceState σ) (q : ρ) :
    decodeExact (sliceDecoder D) R ⟨s, c⟩ r ≠ some (.ok y, t, q) :=
  (slice_exact hR h).2.2 c x rfl hc y t q

/-- A number of two bytes, an allowance of two or more. -/
example (c : Nat) (hc : 2 ≤ c) : ∃ s, decodeExact (sliceDecoder u16beDecoder) (pieces 1) ⟨fixInit 2, c⟩ [1, 2, 3] =
    some (.ok 258, ⟨s, c - 2⟩, [3]) := by
  obtain ⟨G, h0, h⟩ := C42_exact_partial (p := true) (w := true) (D := u16beDecoder) (s₀ := fixInit 2)
    (.number _ _ _ _ (by decide)) (C42_pieces (m := 1) (by decide))
  obtain ⟨r, a1, a2, _⟩ := h _ h0 (r := [1, 2, 3]) (c := [1, 2]) (tail := [3]) (e := Eos.new false) (n := 2) (x := 258)
    (s' := ⟨[1, 2], 0⟩) rfl (feed_one.2 ⟨_, rfl, rfl⟩) (by simp)
  simp only [id, List.drop, List.nil_append] at a2
  subst a2
  exact ⟨_, C42_slice (C42_pieces (m := 1) (by decide)) a1 hc⟩

/-- C42 (the code deviates): with a smaller allowance `decode_exact` takes bytes from the reader which the
decoder does not get: the second byte of the number is lost, and the error is `InconsistentState`. -/
theorem C42_slice_fails : decodeExact (sliceDecoder u16beDecoder) (pieces 9) ⟨fixInit 2, 1⟩ [1, 2, 3] =
    some (.err .inconsistentState, ⟨⟨[1, 0], 1⟩, 0⟩, [3]) := by
  rw [decodeExact]
  rfl

/-- C42 (the code deviates): `collectn` looks at a new item only when there are bytes, and items of
zero bytes ask for none, so `decode_exact` calls `decode` with an empty buffer forever, whereas a
`decode` call with any non-empty buffer would complete. -/
theorem C42_collectN_hangs_fails (R : Reader ρ) (r : ρ) (b : UInt8) (bs : Bytes) (e : Eos) :
    (collectNDecoder nullDecoder).decode (.new () 2) (b :: bs) e = (.ok 0, ⟨(), 0, [(), ()]⟩) ∧
    decodeExact (collectNDecoder nullDecoder) R (.new () 2) r = none := by
  constructor
  · simp [collectNDecoder, collectNLoop, CollectNState.new, tryDecode, nullDecoder]
  · refine decodeExact_hang (J := fun s _ => s = .new () 2) ?_ rfl
    rintro s r rfl
    exact ⟨[], r, _, rfl, by simp, rfl, rfl, rfl⟩

/-- C42 (the code deviates): `maybe_eos` over a one-byte number, on a stream that is at its end:
`decode_exact` never returns. -/
theorem C42_maybeEos_hangs_fails : decodeExact (maybeEosDecoder (fixDecoder (fun b => b.headD 0))) (pieces 1)
    (.new (fixInit 1)) [] = none := by
  refine decodeExact_hang (J := fun s r => s = .new (fixInit 1) ∧ r = []) ?_ ⟨rfl, rfl⟩
  rintro s r ⟨rfl, rfl⟩
  exact ⟨[], [], _, rfl, by simp, rfl, rfl, rfl, rfl⟩

/-- C42 (the code deviates): after one item, the item decoder `bytes` asks for nothing, so that
`decode_exact` on a `collect` over it never returns, whatever follows in the stream. -/
theorem C42_collect_hangs_fails (R : Reader ρ) (r : ρ) :
    decodeExact (collectDecoder bytesDecoder) R ⟨⟨none, 0⟩, [[7]], false⟩ r = none := by
  refine decodeExact_hang (J := fun s _ => s = ⟨⟨none, 0⟩, [[7]], false⟩) ?_ rfl
  rintro s r rfl
  refine ⟨[], r, _, rfl, by simp, ?_, ?_, rfl⟩
  · simp only [collectDecoder]
    rw [collectLoop]
    rfl
  · rfl

/-! ## C49: I/O errors in `decode_exact` and `encode_all` -/

/-- `decode_exact` stops at the first error of the reader and reports its kind. -/
theorem C49_decode_exact {D : Decoder σ α} {R : Reader ρ} {s s' : σ} {r r' : ρ} {log log' : List ReadRes}
    {y : Res α} (h : decodeExact D (loggedReader R) s (r, log) = some (y, s', (r', log'))) :
    ∃ as, log' = log ++ as ∧ ∀ io, ReadRes.error io ∈ as → as.getLast? = some (.error io) ∧
      ∃ k, y = .err k ∧ (k = .unexpectedEos ↔ io = .unexpectedEof) ∧ (io ≠ .unexpectedEof → k = .other) := by
  have hread : ∀ {c : ByteCount} {r : ρ × List ReadRes} {a r'}, exactRead (loggedReader R) c r = (a, r') →
      ∃ as, r'.2 = r.2 ++ as ∧ ((∃ bs, a = .data bs) → ∀ io, ReadRes.error io ∉ as) ∧
        (∀ io, a = .error io → as = [.error io]) := by
    intro c r a r' h
    rw [exactRead] at h
    split at h
    · cases h
      refine ⟨_, rfl, ?_, ?_⟩
      · rintro ⟨bs, hb⟩ io
        have hb : (R.read r.1 (readSize c)).1 = .data bs := hb
        simp [hb]
      · intro io hb
        have hb : (R.read r.1 (readSize c)).1 = .error io := hb
        simp [hb]
    · cases h
      exact ⟨[], by simp, by simp, by simp⟩
  refine decodeExact_induct (D := D) (R := loggedReader R)
    (P := fun s r y s' r' => ∃ as, r'.2 = r.2 ++ as ∧ ∀ io, ReadRes.error io ∈ as →
      as.getLast? = some (.error io) ∧
      ∃ k, y = .err k ∧ (k = .unexpectedEos ↔ io = .unexpectedEof) ∧ (io ≠ .unexpectedEof → k = .other))
    ?_ ?_ ?_ ?_ h
  · intro s r k r' hr
    obtain ⟨as, h1, _, h2⟩ := hread hr
    refine ⟨as, h1, ?_⟩
    rw [h2 k rfl]
    intro io hio
    obtain rfl : io = k := by simpa using hio
    exact ⟨rfl, _, rfl, (C49_kinds io).1, (C49_kinds io).2⟩
  · intro s r bs r' y s' hr _ _
    obtain ⟨as, h1, h2, _⟩ := hread hr
    exact ⟨as, h1, fun io hio => absurd hio (h2 ⟨_, rfl⟩ io)⟩
  · intro s r bs r' s' hr _ _ _
    obtain ⟨as, h1, h2, _⟩ := hread hr
    exact ⟨as, h1, fun io hio => absurd hio (h2 ⟨_, rfl⟩ io)⟩
  · intro s r bs r' s' y t q hr _ _ _ ih
    obtain ⟨as, h1, h2, _⟩ := hread hr
    obtain ⟨as', k1, k2⟩ := ih
    refine ⟨as ++ as', by rw [k1, h1, List.append_assoc], ?_⟩
    intro io hio
    rcases List.mem_append.1 hio with hio | hio
    · exact absurd hio (h2 ⟨_, rfl⟩ io)
    · obtain ⟨g1, g2⟩ := k2 io hio
      exact ⟨by rw [List.getLast?_append, g1]; rfl, g2⟩

/-- A reader that fails at once. -/
private def failing (k : IoErr) : Reader Unit where
  read r _ := (.error k, r)

example : ∃ s' log', decodeExact copyableBytesDecoder (loggedReader (failing .unexpectedEof)) (.new [0]) ((), []) =
    some (.err .unexpectedEos, s', ((), log')) ∧ log' = [.error .unexpectedEof] :=
  ⟨_, _, by rw [decodeExact_eq]; rfl, rfl⟩

/-- What became of writing one buffer, or several: `as` are the answers of the writer. -/
private def Reported (y : Res Unit) (as : List (Bytes × WriteRes)) : Prop :=
  ∀ a ∈ as, (∀ io, a.2 = .error io → as.getLast? = some a ∧
    ∃ k, y = .err k ∧ (k = .unexpectedEos ↔ io = .unexpectedEof) ∧ (io ≠ .unexpectedEof → k = .other)) ∧
    (a.2 = .wrote 0 → as.getLast? = some a ∧ y = .err .other)

private theorem Reported.append {y : Res Unit} {as as' : List (Bytes × WriteRes)} (h : Reported (.ok ()) as)
    (h' : Reported y as') : Reported y (as ++ as') := by
  intro a ha
  rcases List.mem_append.1 ha with ha | ha
  · obtain ⟨h1, h2⟩ := h a ha
    refine ⟨fun io hio => ?_, fun hz => ?_⟩
    · obtain ⟨_, k, hk, _⟩ := h1 io hio
      cases hk
    · have := (h2 hz).2
      cases this
  · obtain ⟨h1, h2⟩ := h' a ha
    refine ⟨fun io hio => ?_, fun hz => ?_⟩
    · obtain ⟨g1, g2⟩ := h1 io hio
      exact ⟨by rw [List.getLast?_append, g1]; rfl, g2⟩
    · obtain ⟨g1, g2⟩ := h2 hz
      exact ⟨by rw [List.getLast?_append, g1]; rfl, g2⟩

private theorem writeAll_reported {W : Writer ω} : ∀ n {buf : Bytes} {w : ω × List (Bytes × WriteRes)},
    buf.length = n → ∃ as, (writeAll (loggedWriter W) w buf).2.2 = w.2 ++ as ∧
      Reported (writeAll (loggedWriter W) w buf).1 as := by
  intro n
  induction n using Nat.strongRecOn with
  | ind n ih =>
    intro buf w hn
    rw [writeAll]
    split
    · exact ⟨[], by simp, fun a ha => by cases ha⟩
    · next hb =>
      have hb : buf ≠ [] := by simpa using hb
      split
      · next k w' hw =>
        have h1 : (W.write w.1 buf).1 = .error k := congrArg Prod.fst hw
        refine ⟨[(buf, .error k)], ?_, ?_⟩
        · rw [← congrArg Prod.snd hw]
          simp [loggedWriter, h1]
        · intro a ha
          obtain rfl : a = (buf, .error k) := by simpa using ha
          refine ⟨fun io hio => ?_, fun hz => by cases hz⟩
          obtain rfl : k = io := by simpa using hio
          exact ⟨rfl, _, rfl, (C49_kinds k).1, (C49_kinds k).2⟩
      · next m w' hw =>
        have h1 : (W.write w.1 buf).1 = .wrote m := congrArg Prod.fst hw
        have h2 : w'.2 = w.2 ++ [(buf, .wrote m)] := by
          have : w' = ((loggedWriter W).write w buf).2 := (congrArg Prod.snd hw).symm
          rw [this]
          simp [loggedWriter, h1]
        split
        · next hm =>
          subst hm
          refine ⟨_, h2, ?_⟩
          intro a ha
          obtain rfl : a = (buf, .wrote 0) := by simpa using ha
          exact ⟨fun io hio => (by cases hio), fun _ => ⟨rfl, rfl⟩⟩
        · next hm =>
          have hr : ∀ y, Reported y [(buf, .wrote m)] := by
            intro y a ha
            obtain rfl : a = (buf, .wrote m) := by simpa using ha
            exact ⟨fun io hio => (by cases hio), fun hz => by cases hz; exact absurd rfl hm⟩
          split
          · exact ⟨_, h2, hr _⟩
          · have hpos : 0 < buf.length := List.length_pos_iff.2 hb
            obtain ⟨as, g1, g2⟩ := ih (buf.drop m).length (by simp; omega) (buf := buf.drop m) (w := w') rfl
            refine ⟨_ ++ as, by rw [g1, h2, List.append_assoc], (hr _).append g2⟩

/-- `encode_all` stops at the first error of the writer and reports its kind; a writer that takes
nothing of a non-empty buffer is the error `Other` (std's `write_all`). -/
theorem C49_encode_all {E : Encoder σ α} {W : Writer ω} {s s' : σ} {w w' : ω} {log log' : List (Bytes × WriteRes)}
    {y : Res Unit} (h : encodeAll E (loggedWriter W) s (w, log) = some (y, s', (w', log'))) :
    ∃ as, log' = log ++ as ∧ ∀ a ∈ as,
      (∀ io, a.2 = .error io → as.getLast? = some a ∧
        ∃ k, y = .err k ∧ (k = .unexpectedEos ↔ io = .unexpectedEof) ∧ (io ≠ .unexpectedEof → k = .other)) ∧
      (a.2 = .wrote 0 → as.getLast? = some a ∧ y = .err .other) := by
  have key := encodeAll.partial_correctness E (loggedWriter W)
    (motive := fun s w y => ∃ as, y.2.2.2 = w.2 ++ as ∧ Reported y.1 as) ?_
  · exact key _ _ _ h
  · intro loop ih s w y h
    have nothing : ∀ y, Reported y [] := fun y a ha => by cases ha
    split at h
    · cases h; exact ⟨[], by simp, nothing _⟩
    · split at h
      · next bs s' he =>
        split at h
        · cases h; exact ⟨[], by simp, nothing _⟩
        · obtain ⟨as, g1, g2⟩ := writeAll_reported (W := W) _ (buf := bs) (w := w) rfl
          split at h
          · next w' hw =>
            rw [hw] at g1 g2
            split at h
            · cases h
              refine ⟨as, g1, ?_⟩
              have := g2.append (nothing (.err .other))
              rwa [List.append_nil] at this
            · obtain ⟨as', k1, k2⟩ := ih _ _ _ h
              exact ⟨as ++ as', by rw [k1, g1, List.append_assoc], g2.append k2⟩
          all_goals
            next hw =>
              rw [hw] at g1 g2
              cases h
              exact ⟨as, g1, g2⟩
      all_goals cases h; exact ⟨[], by simp, nothing _⟩

/-- A writer that fails at once. -/
private def failingWriter (k : IoErr) : Writer Unit where
  write w _ := (.error k, w)

example : ∃ s' log', encodeAll (bytesEncoder (id : Bytes → Bytes)).toEncoder (loggedWriter (failingWriter .unexpectedEof))
    ((bytesEncoder (id : Bytes → Bytes)).start .new [1, 2]).2 ((), []) =
      some (.err .unexpectedEos, s', ((), log')) ∧ log' = [([1, 2], .error .unexpectedEof)] :=
  ⟨_, _, by rw [encodeAll]; unfold writeAll; rfl, rfl⟩

end Bytecodec.Props
