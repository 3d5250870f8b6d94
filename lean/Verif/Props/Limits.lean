import Verif.Lemmas.Tally
import Verif.Lemmas.Safe
import Verif.Model.Fixnum
import Verif.Model.Access
/-!
# C25, C27, C30, C31: length, max_bytes, peekable, maybe_eos
-/
namespace Bytecodec.Props

open Bytecodec Bytecodec.Spec

variable {σ α β : Type}

/-! ## C25: `length` -/

/-- C25: when `finish_decoding` succeeds, exactly `n` bytes were reported consumed since the last item was
taken. A call of `finish_decoding` that failed in between may have started the count again
(`C25_failed_finish_fails`), so after `f` such calls it is a multiple of `n`, at most `f + 1` times. -/
theorem C25_exact_partial {D : Decoder σ α} {i : σ} {n : Nat} {s s' : LengthState σ} {c f : Nat} {x : α}
    (h : Tally (lengthDecoder D) noSet (.new i n) s c f) (hf : (lengthDecoder D).finish s = (.ok x, s')) :
    (∃ k, k ≤ f ∧ c = (k + 1) * n) ∧ (f = 0 → c = n) := by
  obtain ⟨k, h1, _, _, h4⟩ := tally_length h
  rcases length_finish D s with ⟨h0, h⟩ | ⟨_, h⟩
  · rw [h0, Nat.add_zero] at h4
    refine ⟨⟨k, h1, h4⟩, fun h0 => ?_⟩
    obtain rfl : k = 0 := by omega
    omega
  · rw [h] at hf; cases hf

/-- C25: with fewer bytes consumed, no item is handed out. -/
theorem C25_incomplete {D : Decoder σ α} {i : σ} {n : Nat} {s : LengthState σ} {c : Nat}
    (h : Tally (lengthDecoder D) noSet (.new i n) s c 0) (hc : c < n) :
    (lengthDecoder D).finish s = (.err .incompleteDecoding, s) := by
  obtain ⟨k, h1, _, _, h4⟩ := tally_length h
  obtain rfl : k = 0 := by omega
  rcases length_finish D s with ⟨h0, _⟩ | ⟨_, h⟩
  · omega
  · exact h

/-- C25: what the inner decoder is shown. Of the buffer `b` it gets the part within the `n` bytes, and an
eos marker that says how many of them are still to come. Its answer is passed on. (The panic is for an
inner decoder that claims to have consumed more than it was given.) The only other outcome is
`UnexpectedEos`, when the stream is known to be too short. -/
theorem C25_view {D : Decoder σ α} {i : σ} {n : Nat} {s : LengthState σ} {c : Nat}
    (h : Tally (lengthDecoder D) noSet (.new i n) s c 0) (b : Bytes) (e : Eos) (he : EosSane e b.length) :
    let view := b.take (n - c)
    let inner := D.decode s.inner view (Eos.withRemainingBytes (.finite (n - c - view.length)))
    let outer := (lengthDecoder D).decode s b e
    (∃ r, e.remaining = .finite r ∧ c + view.length + b.length + r < n ∧ outer = (.err .unexpectedEos, s)) ∨
    outer.2.inner = inner.2 ∧
      (outer.1 = inner.1 ∨ outer.1 = .panic ∧ ∃ m, inner.1 = .ok m ∧ n - c < m) := by
  obtain ⟨k, h1, _, _, h4⟩ := tally_length h
  obtain rfl : k = 0 := by omega
  obtain ⟨hr, hcn⟩ : s.remaining = n - c ∧ c ≤ n := by omega
  have hv : (b.take (n - c)).length = min b.length s.remaining := by rw [List.length_take, hr, Nat.min_comm]
  have hv' : b.take (n - c) = b.take (min b.length s.remaining) := by
    rw [hr]
    by_cases hl : b.length ≤ n - c
    · rw [Nat.min_eq_left hl, List.take_of_length_le hl, List.take_of_length_le (Nat.le_refl _)]
    · rw [Nat.min_eq_right (by omega)]
  simp only
  rw [hv, hv', ← hr]
  rcases length_cases D s b e with ⟨h, r, hr, hb⟩ | ⟨h, r, hr, hb⟩ | ⟨_, r, i', hd, h⟩
  · have := he r hr; omega
  · exact .inl ⟨r, hr, by omega, h⟩
  · right
    rw [hd]
    rcases h with ⟨m', hm', hm, h⟩ | ⟨m', hm', hm, h⟩ | ⟨hr', h⟩ <;> rw [h]
    · exact ⟨rfl, .inl hm'.symm⟩
    · exact ⟨rfl, .inr ⟨rfl, m', hm', hm⟩⟩
    · exact ⟨rfl, .inl rfl⟩

/-- C25: at the end of the stream, with nothing left to offer and less than `n` bytes consumed, the
decoder reports `UnexpectedEos`. -/
theorem C25_short_partial {D : Decoder σ α} {i : σ} {n : Nat} {s : LengthState σ} {c : Nat}
    (h : Tally (lengthDecoder D) noSet (.new i n) s c 0) (hc : c < n) :
    (lengthDecoder D).decode s [] (Eos.new true) = (.err .unexpectedEos, s) := by
  obtain ⟨k, h1, _, _, h4⟩ := tally_length h
  obtain rfl : k = 0 := by omega
  have e0 : (Eos.new true).remaining = .finite 0 := rfl
  rcases length_cases D s [] (Eos.new true) with ⟨h, r, hr, hb⟩ | ⟨h, r, hr, hb⟩ | ⟨hr, _⟩
  · rw [e0] at hr; cases hr; simp at hb
  · exact h
  · have := hr 0 rfl
    simp at this
    omega

/-- C25: a stream shorter than `n` bytes never yields an item, however it is cut. -/
theorem C25_short_never {D : Decoder σ α} {i : σ} (hD : SafeFrom D i) {n : Nat} (hn : n < 2 ^ 64)
    {chunks : List (Bytes × Eos)} {b : Bytes} {e : Eos} (hc : Schedule chunks b e) (he : EosSane e b.length)
    (hb : b.length < n) : feed (lengthDecoder D) (.new i n) chunks = none := by
  cases hf : feed (lengthDecoder D) (.new i n) chunks with
  | none => rfl
  | some r =>
    obtain ⟨m, x, s'⟩ := r
    have hs := hc.sane he
    obtain ⟨t, ht, hx⟩ := feed_tally (set := noSet) hs .new hf
    have h1 := (C25_exact_partial ht hx).2 rfl
    have h2 := feed_total (safe_length hn hD) hs .refl hf
    rw [hc.total] at h2
    omega

/-- C25: `set_expected_bytes` is accepted exactly between two items, and then it is as if the decoder had
been made with the new length. -/
theorem C25_set {D : Decoder σ α} {i : σ} {n : Nat} {s : LengthState σ} {c : Nat}
    (h : Tally (lengthDecoder D) noSet (.new i n) s c 0) (m : Nat) :
    s.setExpectedBytes m = if c = 0 then (.ok (), .new s.inner m) else (.err .incompleteDecoding, s) := by
  obtain ⟨k, h1, h2, _, h4⟩ := tally_length h
  obtain rfl : k = 0 := by omega
  simp only [LengthState.setExpectedBytes]
  by_cases hc : c = 0
  · rw [if_pos hc, if_pos (by omega)]; rfl
  · rw [if_neg hc, if_neg (by omega)]

/-- C25, not quite: that the stream is too short is not always noticed by the call that is told so. The
bytes of the buffer are counted twice. -/
theorem C25_short_fails :
    (lengthDecoder remainingBytesDecoder).decode (.new .new 3) [1, 2] (Eos.new true) =
      (.ok 2, ⟨⟨[1, 2], false⟩, 3, 1⟩) := by
  simp [lengthDecoder, LengthState.new, Eos.new, Eos.remainingBytes, Eos.withRemainingBytes, Eos.isReached,
    ByteCount.toU64, Res.step, remainingBytesDecoder, RemainingState.new]

/-- Only numbers other than 0. -/
def nonZero (x : UInt8) : Except ErrorKind UInt8 := if x = 0 then .error .invalidInput else .ok x

/-- C25, not quite: a failed `finish_decoding` starts the count again. Two bytes are consumed between two
items of `length(1)`. -/
theorem C25_failed_finish_fails :
    let D := lengthDecoder (tryMapDecoder u8Decoder nonZero)
    ∃ s1 s2 s3 s4, D.decode (.new (fixInit 1) 1) [0] (Eos.new false) = (.ok 1, s1) ∧
      D.finish s1 = (.err .invalidInput, s2) ∧ D.decode s2 [7] (Eos.new false) = (.ok 1, s3) ∧
      D.finish s3 = (.ok 7, s4) :=
  ⟨_, _, _, _, rfl, rfl, rfl, rfl⟩

example : ∃ s s', Tally (lengthDecoder u8Decoder) noSet (.new (fixInit 1) 1) s 1 0 ∧
    (lengthDecoder u8Decoder).finish s = (.ok 7, s') :=
  ⟨_, _, .decoded .new (n := 1) (b := [7, 8]) (e := Eos.new false) EosSane.newFalse rfl, rfl⟩

example : ∃ s, Tally (lengthDecoder remainingBytesDecoder) noSet (.new .new 3) s 2 0 ∧
    (lengthDecoder remainingBytesDecoder).decode s [] (Eos.new true) = (.err .unexpectedEos, s) :=
  have h := Tally.decoded .new (n := 2) (b := [1, 2]) (e := Eos.new true)
    (by intro n h; cases h; decide) C25_short_fails
  ⟨_, h, C25_short_partial h (by decide)⟩

/-! ## C27: `max_bytes` for decoders -/

/-- C27: never more than the maximum is consumed for one item, whatever the caller does, including
changes of the maximum by `set_max_bytes`, as long as `finish_decoding` does not fail. The count the
decoder keeps is the true one. -/
theorem C27_bound_partial {D : Decoder σ α} {i : σ} {n : Nat} (hD : SafeFrom D i) {s : MaxBytesState σ} {c : Nat}
    (h : Tally (maxBytesDecoder D) maxSet (.new i n) s c 0) : s.consumed = c ∧ c ≤ s.max := by
  obtain ⟨_, h2, h3⟩ := tally_maxBytes hD h
  have := h3 rfl
  omega

/-- C27: no call ever underflows or crashes, even after failed calls of `finish_decoding`. -/
theorem C27_noCrash {D : Decoder σ α} {i : σ} {n : Nat} (hD : SafeFrom D i) {s : MaxBytesState σ} {c f : Nat}
    (h : Tally (maxBytesDecoder D) maxSet (.new i n) s c f) (b : Bytes) (e : Eos) (he : EosSane e b.length) :
    NoCrash ((maxBytesDecoder D).decode s b e).1 := by
  obtain ⟨h1, h2, _⟩ := tally_maxBytes hD h
  rcases maxBytes_cases D s b e with ⟨h, _⟩ | ⟨h, h' | ⟨r, hr, hb⟩⟩ | ⟨_, _, _, h⟩
  · rw [h]; simp [NoCrash]
  · omega
  · have := he r hr; omega
  · rw [h]; exact ((hD _ h1).1 b e he).1

/-- The bytes offered, and those known to follow. -/
def offered (b : Bytes) (e : Eos) : Nat :=
  match e.remaining with
  | .finite r => b.length + r
  | _ => b.length

/-- C27: when what is offered, and what is known to follow, fits into the budget, the inner decoder gets
the call unchanged and its answer is the answer. -/
theorem C27_pass {D : Decoder σ α} {i : σ} {n : Nat} (hD : SafeFrom D i) {s : MaxBytesState σ} {c : Nat}
    (h : Tally (maxBytesDecoder D) maxSet (.new i n) s c 0) (b : Bytes) (e : Eos) (he : EosSane e b.length)
    (hi : e.remaining ≠ .infinite) (hb : c + offered b e ≤ s.max) :
    ((maxBytesDecoder D).decode s b e).1 = (D.decode s.inner b e).1 ∧
    ((maxBytesDecoder D).decode s b e).2.inner = (D.decode s.inner b e).2 := by
  obtain ⟨h1, h2, h3⟩ := tally_maxBytes hD h
  have hc := h3 rfl
  rcases maxBytes_cases D s b e with ⟨h, h' | ⟨hr, h', h''⟩ | ⟨r, hr, h', h''⟩⟩ | ⟨h, h' | ⟨r, hr, hb⟩⟩ | ⟨_, _, _, h⟩
  · exact (hi h').elim
  · simp only [offered, hr] at hb; omega
  · simp only [offered, hr] at hb; omega
  · omega
  · have := he r hr; omega
  · rw [h]; exact ⟨rfl, rfl⟩

/-- C27: when it does not fit, or the stream is announced to be infinite, the call is rejected with
`InvalidInput` and nothing changes. -/
theorem C27_reject {D : Decoder σ α} {i : σ} {n : Nat} (hD : SafeFrom D i) {s : MaxBytesState σ} {c : Nat}
    (h : Tally (maxBytesDecoder D) maxSet (.new i n) s c 0) (b : Bytes) (e : Eos) (he : EosSane e b.length)
    (hb : e.remaining = .infinite ∨ s.max < c + offered b e) :
    (maxBytesDecoder D).decode s b e = (.err .invalidInput, s) := by
  obtain ⟨h1, h2, h3⟩ := tally_maxBytes hD h
  have hc := h3 rfl
  rcases maxBytes_cases D s b e with ⟨h, h'⟩ | ⟨h, h' | ⟨r, hr, hb⟩⟩ | ⟨h', hinf, hfin, h⟩
  · exact h
  · omega
  · have := he r hr; omega
  · rcases hb with hb | hb
    · exact (hinf hb).elim
    · simp only [offered] at hb
      split at hb
      · next r hr => have := hfin r hr; omega
      · omega

/-- C27: `finish_decoding` and the queries are those of the inner decoder. -/
theorem C27_finish (D : Decoder σ α) (s : MaxBytesState σ) :
    ((maxBytesDecoder D).finish s).1 = (D.finish s.inner).1 ∧
    (maxBytesDecoder D).isIdle s = D.isIdle s.inner ∧
    (maxBytesDecoder D).requiring s = D.requiring s.inner :=
  ⟨by rw [maxBytes_finish], rfl, rfl⟩

/-- C27: a new maximum is accepted iff it is not yet exceeded; a rejected one changes nothing. -/
theorem C27_setMax {D : Decoder σ α} {i : σ} {n : Nat} (hD : SafeFrom D i) {s : MaxBytesState σ} {c : Nat}
    (h : Tally (maxBytesDecoder D) maxSet (.new i n) s c 0) (m : Nat) :
    s.setMaxBytes m = if c ≤ m then (.ok (), { s with max := m }) else (.err .invalidInput, s) := by
  have := (C27_bound_partial hD h).1
  simp only [MaxBytesState.setMaxBytes, this]

/-- C27, not quite: a failed `finish_decoding` starts the count again. Four bytes are consumed for one
item with a maximum of two. -/
theorem C27_failed_finish_fails :
    let D := maxBytesDecoder u32beDecoder
    ∃ s1 s2 s3 s4, D.decode (.new (fixInit 4) 2) [0, 0] (Eos.new false) = (.ok 2, s1) ∧
      D.finish s1 = (.err .incompleteDecoding, s2) ∧ D.decode s2 [1, 2] (Eos.new false) = (.ok 2, s3) ∧
      D.finish s3 = (.ok 258, s4) :=
  ⟨_, _, _, _, rfl, rfl, rfl, rfl⟩

example : ∃ s, Tally (maxBytesDecoder u32beDecoder) maxSet (.new (fixInit 4) 3) s 2 0 ∧ s.max = 5 ∧
    (maxBytesDecoder u32beDecoder).decode s [1, 2, 3, 4] (Eos.new false) = (.err .invalidInput, s) :=
  ⟨_, .set (.decoded .new (n := 2) (b := [0, 0]) (e := Eos.new false) EosSane.newFalse rfl) ⟨5, rfl⟩,
    rfl, rfl⟩

example : SafeFrom u32beDecoder (fixInit 4) := safe_fix _ 4

/-! ## C30: `peekable` -/

/-- C30: `peek` shows exactly the item `finish_decoding` will return. -/
theorem C30_peek (D : Decoder σ α) (s : PeekState σ α) (x : α) :
    s.peek = some x ↔ ∃ s', (peekableDecoder D).finish s = (.ok x, s') := by
  simp only [PeekState.peek, peekableDecoder]
  cases s.item <;> simp

/-- C30: there is something to peek at exactly when the decoder is idle. -/
theorem C30_idle (D : Decoder σ α) (s : PeekState σ α) :
    (peekableDecoder D).isIdle s = true ↔ ∃ x, s.peek = some x := by
  simp only [PeekState.peek, peekableDecoder, Option.isSome_iff_exists]

/-- C30: until the item is taken, nothing is consumed and nothing changes. -/
theorem C30_stable (D : Decoder σ α) (s : PeekState σ α) {x : α} (h : s.peek = some x) (b : Bytes) (e : Eos) :
    (peekableDecoder D).decode s b e = (.ok 0, s) ∧ (peekableDecoder D).requiring s = .finite 0 := by
  simp only [PeekState.peek] at h
  simp [peekableDecoder, h]

/-- C30: while there is nothing to peek at, `decode` is the `decode` of the inner decoder. When that
completes the item, the item is taken from it, and shown. -/
theorem C30_decode (D : Decoder σ α) (i : σ) (b : Bytes) (e : Eos) {n : Nat} {i' : σ}
    (hd : D.decode i b e = (.ok n, i')) :
    (D.isIdle i' = false → (peekableDecoder D).decode ⟨i, none⟩ b e = (.ok n, ⟨i', none⟩)) ∧
    (D.isIdle i' = true → ∀ x i'', D.finish i' = (.ok x, i'') →
      (peekableDecoder D).decode ⟨i, none⟩ b e = (.ok n, ⟨i'', some x⟩)) := by
  constructor
  · intro h; simp [peekableDecoder, hd, Res.step, h]
  · intro h x i'' hf; simp [peekableDecoder, hd, Res.step, h, hf]

/-- C30: the items, the bytes consumed and the inner decoder afterwards are those without `peekable`,
for every chunking. -/
theorem C30_items (D : Decoder σ α) : ∀ (chunks : List (Bytes × Eos)) (i : σ), D.isIdle i = false →
    feed (peekableDecoder D) ⟨i, none⟩ chunks =
      (feed D i chunks).map fun (n, x, t) => (n, x, ⟨t, none⟩)
  | [], i, hi => by
    rw [feed, if_neg (by simp [peekableDecoder]), feed, if_neg (by simp [hi])]
    rfl
  | (b, e) :: rest, i, hi => by
    rw [feed, if_neg (by simp [peekableDecoder]), feed, if_neg (by simp [hi])]
    simp only
    rcases hd : D.decode i b e with ⟨r, i'⟩
    cases r with
    | ok n =>
      simp only
      cases hi' : D.isIdle i' with
      | false =>
        rw [(C30_decode D i b e hd).1 hi']
        simp only [show (peekableDecoder D).isIdle ⟨i', none⟩ = false from rfl, hi']
        split
        · rw [C30_items D rest i' hi', Option.map_map, Option.map_map]
          rfl
        · rfl
      | true =>
        rcases hf : D.finish i' with ⟨r, i''⟩
        cases r with
        | ok x =>
          rw [(C30_decode D i b e hd).2 hi' x i'' hf]
          simp only [show (peekableDecoder D).isIdle ⟨i'', some x⟩ = true from rfl, hi']
          simp only [true_or, if_true]
          rw [feed_idle (D := peekableDecoder D) rfl, feed_idle hi', hf]
          rfl
        | _ =>
          simp only [peekableDecoder, hd, Res.step, hi', hf, if_true, true_or]
          rw [feed_idle hi', hf]
          rfl
    | _ => simp only [peekableDecoder, hd, Res.step]; rfl

example : ∃ s, (peekableDecoder u16beDecoder).decode ⟨fixInit 2, none⟩ [1, 2, 3] (Eos.new false) = (.ok 2, s) ∧
    s.peek = some 258 := ⟨_, rfl, rfl⟩

/-- C30: an item changed through `peek_mut` is the one `peek` shows and `finish_decoding` returns; the decoder is then in
the state in which it would be without the change. Without an item nothing happens. -/
theorem C30_peek_mut (D : Decoder σ α) (s : PeekState σ α) (f : α → α) :
    (s.peekMut f).peek = s.peek.map f ∧
    (∀ x, s.peek = some x → (peekableDecoder D).finish (s.peekMut f) = (.ok (f x), ((peekableDecoder D).finish s).2)) ∧
    (s.peek = none → s.peekMut f = s) := by
  obtain ⟨i, it⟩ := s
  cases it with
  | none => exact ⟨rfl, fun x h => (by cases h), fun _ => rfl⟩
  | some y => exact ⟨rfl, fun x h => (by cases h; rfl), fun h => (by cases h)⟩

example : (peekableDecoder u16beDecoder).finish ((⟨fixInit 2, some 258⟩ : PeekState _ _).peekMut (· + 1)) =
    (.ok 259, ⟨fixInit 2, none⟩) := rfl

/-! ## C31: `maybe_eos` -/

/-- C31: with no byte of the current item consumed, an empty buffer at the end of the stream is presented
to the inner decoder as an empty buffer somewhere in the stream. -/
theorem C31_between {D : Decoder σ α} {i : σ} {s : MaybeEosState σ}
    (h : Tally (maybeEosDecoder D) noSet (.new i) s 0 0) (e : Eos) (he : e.isReached = true) :
    ((maybeEosDecoder D).decode s [] e).1 = (D.decode s.inner [] (Eos.new false)).1 ∧
    ((maybeEosDecoder D).decode s [] e).2.inner = (D.decode s.inner [] (Eos.new false)).2 := by
  have hs : s.started = false := by
    have := tally_maybeEos h rfl
    cases hs : s.started <;> simp_all
  simp only [maybeEosDecoder, hs, he]
  simp only [Bool.not_false, List.isEmpty_nil, Bool.and_self, if_true]
  rcases D.decode s.inner [] (Eos.new false) with ⟨r, i'⟩
  cases r <;> exact ⟨rfl, rfl⟩

/-- C31: in every other situation the inner decoder gets the call unchanged and its answer is the
answer; in particular at the end of the stream after at least one byte of the item. -/
theorem C31_otherwise_partial {D : Decoder σ α} {i : σ} {s : MaybeEosState σ} {c : Nat}
    (h : Tally (maybeEosDecoder D) noSet (.new i) s c 0) (b : Bytes) (e : Eos)
    (hc : c ≠ 0 ∨ b ≠ [] ∨ e.isReached = false) :
    ((maybeEosDecoder D).decode s b e).1 = (D.decode s.inner b e).1 ∧
    ((maybeEosDecoder D).decode s b e).2.inner = (D.decode s.inner b e).2 := by
  have hs := tally_maybeEos h rfl
  have : (!s.started && b.isEmpty && e.isReached) = false := by
    rcases hc with hc | hc | hc
    · rw [hs.2 hc]; rfl
    · cases b with
      | nil => exact (hc rfl).elim
      | cons => simp
    · simp [hc]
  simp only [maybeEosDecoder, this]
  rw [if_neg (by simp)]
  rcases D.decode s.inner b e with ⟨r, i'⟩
  cases r <;> exact ⟨rfl, rfl⟩

/-- C31: `finish_decoding` and the queries are those of the inner decoder. -/
theorem C31_finish (D : Decoder σ α) (s : MaybeEosState σ) :
    ((maybeEosDecoder D).finish s).1 = (D.finish s.inner).1 ∧
    (maybeEosDecoder D).isIdle s = D.isIdle s.inner ∧
    (maybeEosDecoder D).requiring s = D.requiring s.inner := by
  refine ⟨?_, rfl, rfl⟩
  simp only [maybeEosDecoder]
  rcases D.finish s.inner with ⟨r, i'⟩
  cases r <;> rfl

theorem maybeEos_feed (D : Decoder σ α) {chunks : List (Bytes × Eos)} {b : Bytes} {e : Eos}
    (hc : Schedule chunks b e) : ∀ (i : σ) (st : Bool), (st = true ∨ b ≠ []) →
    feed (maybeEosDecoder D) ⟨i, st⟩ chunks =
      (feed D i chunks).map fun (n, x, t) => (n, x, .new t) := by
  have quiet : ∀ (i : σ) (st : Bool) (chunks : List (Bytes × Eos)), D.isIdle i = true →
      feed (maybeEosDecoder D) ⟨i, st⟩ chunks = (feed D i chunks).map fun (n, x, t) => (n, x, .new t) := by
    intro i st chunks hi
    rw [feed_idle (D := maybeEosDecoder D) (s := ⟨i, st⟩) hi, feed_idle hi]
    simp only [maybeEosDecoder]
    rcases D.finish i with ⟨r, i'⟩
    cases r <;> rfl
  have call : ∀ (i : σ) (st : Bool) (b : Bytes) (e : Eos), (st = true ∨ b ≠ [] ∨ e.isReached = false) →
      (maybeEosDecoder D).decode ⟨i, st⟩ b e = Res.step (D.decode i b e) (fun i => ⟨i, st⟩) (fun size i =>
        (.ok size, ⟨i, if size ≠ 0 then true else st⟩)) := by
    intro i st b e h
    simp only [maybeEosDecoder]
    rw [if_neg]
    intro h'
    simp only [Bool.and_eq_true, Bool.not_eq_true', List.isEmpty_iff] at h'
    rcases h with h | h | h
    · simp [h] at h'
    · exact h h'.1.2
    · simp [h] at h'
  induction hc with
  | last b e =>
    intro i st hb
    cases hi : D.isIdle i with
    | true => exact quiet i st _ hi
    | false =>
      rw [feed, if_neg (by simp [maybeEosDecoder, hi]), feed, if_neg (by simp [hi])]
      simp only
      rw [call i st b e (by rcases hb with h | h; exact .inl h; exact .inr (.inl h))]
      rcases D.decode i b e with ⟨r, i'⟩
      cases r with
      | ok n =>
        simp only [Res.step]
        cases hi' : D.isIdle i' with
        | true =>
          simp only [show (maybeEosDecoder D).isIdle ⟨i', if n ≠ 0 then true else st⟩ = true from hi',
            true_or, if_true]
          rw [quiet i' _ _ hi', Option.map_map, Option.map_map]
          rfl
        | false =>
          simp only [show (maybeEosDecoder D).isIdle ⟨i', if n ≠ 0 then true else st⟩ = false from hi']
          split
          · rw [feed, if_neg (by simp [maybeEosDecoder, hi']), feed, if_neg (by simp [hi'])]
            rfl
          · rfl
      | _ => rfl
  | @cons chunks rest e c ec hec hsch ih =>
    intro i st hb
    cases hi : D.isIdle i with
    | true => exact quiet i st _ hi
    | false =>
      rw [feed, if_neg (by simp [maybeEosDecoder, hi]), feed, if_neg (by simp [hi])]
      simp only
      have hcall : st = true ∨ c ≠ [] ∨ ec.isReached = false := by
        rcases hb with h | h
        · exact .inl h
        · by_cases hc : c = []
          · right; right
            rcases hec with rfl | rfl
            · rfl
            · cases hr : (eosShift e rest.length).isReached with
              | false => rfl
              | true =>
                have := (eosShift_reached hr).1
                have : rest = [] := List.length_eq_zero_iff.1 this
                subst this; subst hc; exact (h rfl).elim
          · exact .inr (.inl hc)
      rw [call i st c ec hcall]
      rcases D.decode i c ec with ⟨r, i'⟩
      cases r with
      | ok n =>
        simp only [Res.step]
        cases hi' : D.isIdle i' with
        | true =>
          simp only [show (maybeEosDecoder D).isIdle ⟨i', if n ≠ 0 then true else st⟩ = true from hi',
            true_or, if_true]
          rw [quiet i' _ _ hi', Option.map_map, Option.map_map]
          rfl
        | false =>
          simp only [show (maybeEosDecoder D).isIdle ⟨i', if n ≠ 0 then true else st⟩ = false from hi']
          split
          · next hn =>
            have hn : n = c.length := by simpa using hn
            rw [ih i' _ ?_, Option.map_map, Option.map_map]
            · rfl
            · rcases hb with h | h
              · left; rw [h]; simp
              · by_cases hc : c = []
                · right; subst hc; simpa using h
                · left; rw [if_pos]
                  rw [hn]; exact fun h0 => hc (List.length_eq_zero_iff.1 h0)
          · rfl
      | _ => rfl

/-- C31: the decoded items are unchanged: on a stream with at least one byte, however it is cut, the
item, the number of bytes and the decoder afterwards are those without `maybe_eos`. -/
theorem C31_items (D : Decoder σ α) (i : σ) {chunks : List (Bytes × Eos)} {b : Bytes} {e : Eos}
    (hc : Schedule chunks b e) (hb : b ≠ []) :
    feed (maybeEosDecoder D) (.new i) chunks = (feed D i chunks).map fun (n, x, t) => (n, x, .new t) :=
  maybeEos_feed D hc i false (.inr hb)

/-- C31, not quite: a failed `finish_decoding` in the middle of an item makes the decoder forget that the
item has begun, and the truncation is not reported. -/
theorem C31_failed_finish_fails :
    let D := maybeEosDecoder u16beDecoder
    ∃ s1 s2, D.decode (.new (fixInit 2)) [1] (Eos.new false) = (.ok 1, s1) ∧
      (D.decode s1 [] (Eos.new true)).1 = .err .unexpectedEos ∧
      D.finish s1 = (.err .incompleteDecoding, s2) ∧
      (D.decode s2 [] (Eos.new true)).1 = .ok 0 :=
  ⟨_, _, rfl, rfl, rfl, rfl⟩

/-- Without `maybe_eos` the end of the stream between items is an error; with it, it is not. -/
example : (u16beDecoder.decode (fixInit 2) [] (Eos.new true)).1 = .err .unexpectedEos ∧
    ((maybeEosDecoder u16beDecoder).decode (.new (fixInit 2)) [] (Eos.new true)).1 = .ok 0 ∧
    Tally (maybeEosDecoder u16beDecoder) noSet (.new (fixInit 2)) (.new (fixInit 2)) 0 0 :=
  ⟨rfl, rfl, .new⟩

example : ∃ s, Tally (maybeEosDecoder u16beDecoder) noSet (.new (fixInit 2)) s 1 0 ∧
    ((maybeEosDecoder u16beDecoder).decode s [] (Eos.new true)).1 = .err .unexpectedEos :=
  ⟨_, .decoded .new (n := 1) (b := [7]) (e := Eos.new false) EosSane.newFalse rfl, rfl⟩

end Bytecodec.Props
