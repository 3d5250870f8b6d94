import Verif.Lemmas.Unambiguous
import Verif.Lemmas.Frames
/-!
# Formats are unambiguous (C62)
-/
namespace Bytecodec.Props
open Spec

variable {σ τ α : Type}

/-- C62, one message: for every matching pair, if two messages come out of the encoder as the same bytes
(whatever the buffer sizes), they are the same message. -/
theorem C62_injective {strict delim again : Bool} {E : Encoder σ α} {sE : σ} {D : Decoder τ α} {sD : τ}
    {dom enc} (h : Matched strict delim again E sE D sD dom enc) {s t : σ} {x y : α} {out : Bytes}
    (hx : Sends strict E sE s [x] out) (hy : Sends strict E sE t [y] out) (hs : E.isIdle s = true)
    (ht : E.isIdle t = true) (dx : dom x) (dy : dom y) (hl : out.length < 2 ^ 64) : x = y := by
  have hE := matched_emits h
  obtain ⟨F, hF, hR⟩ := matched_reads h
  obtain ⟨x1, x2⟩ := sends_encRun hE hx (by simpa using dx)
  obtain ⟨y1, y2⟩ := sends_encRun hE hy (by simpa using dy)
  obtain ⟨a, ha⟩ := x1 x (by simp)
  obtain ⟨b, hb⟩ := y1 y (by simp)
  have x3 := hE.complete x2 hs
  have y3 := hE.complete y2 ht
  simp only [List.flatMap_singleton, bytesOf_ok ha, bytesOf_ok hb] at x3 y3
  subst x3
  subst y3
  exact reads_whole_inj hR hF ⟨dx, ha⟩ ⟨dy, hb⟩ hl

/-- C62, streams: for every matching pair whose items end by themselves, a stream of bytes can be the
output for one sequence of messages only. More precisely, if what was emitted for `xs` is the beginning
of what was emitted for `ys`, and `xs` is not the longer sequence, then `ys` begins with `xs`. In
particular no encoding is a proper prefix of another. -/
theorem C62_prefix {strict again : Bool} {E : Encoder σ α} {sE : σ} {D : Decoder τ α} {sD : τ}
    {dom enc} (h : Matched strict true again E sE D sD dom enc) {s t : σ} {xs ys : List α} {out more : Bytes}
    (hx : Sends strict E sE s xs out) (hy : Sends strict E sE t ys (out ++ more)) (hs : E.isIdle s = true)
    (ht : E.isIdle t = true) (dx : ∀ x ∈ xs, dom x) (dy : ∀ y ∈ ys, dom y) (hl : xs.length ≤ ys.length) :
    ∃ zs, ys = xs ++ zs ∧ (zs = [] → more = []) := by
  have hE := matched_emits h
  obtain ⟨F, hF, hR⟩ := matched_reads h
  obtain ⟨x1, x2⟩ := sends_encRun hE hx dx
  obtain ⟨y1, y2⟩ := sends_encRun hE hy dy
  have x3 := hE.complete x2 hs
  have y3 := hE.complete y2 ht
  obtain ⟨zs, z1, z2⟩ := stream_inj (r := more) (t := []) (dom := dom) (enc := enc)
    (fun dx dy ha hb he => reads_delim_inj hR hF ⟨dx, ha⟩ ⟨dy, hb⟩ he)
    (fun x hx => ⟨dx x hx, x1 x hx⟩) (fun y hy => ⟨dy y hy, y1 y hy⟩) hl (by rw [← x3, ← y3, List.append_nil])
  exact ⟨zs, z1, fun h => by simpa [h] using z2⟩

/-- C62, streams of items that take at least one byte: the bytes determine the messages. -/
theorem C62_stream {strict again : Bool} {E : Encoder σ α} {sE : σ} {D : Decoder τ α} {sD : τ}
    {dom enc} (h : Matched strict true again E sE D sD dom enc) {s t : σ} {xs ys : List α} {out : Bytes}
    (hx : Sends strict E sE s xs out) (hy : Sends strict E sE t ys out) (hs : E.isIdle s = true)
    (ht : E.isIdle t = true) (dx : ∀ x ∈ xs, dom x ∧ enc x ≠ .ok []) (dy : ∀ y ∈ ys, dom y ∧ enc y ≠ .ok []) :
    xs = ys := by
  have hE := matched_emits h
  -- the shorter one is a prefix of the longer one, and the rest takes no bytes
  have main : ∀ {s t : σ} {xs ys : List α}, Sends strict E sE s xs out → Sends strict E sE t ys out →
      E.isIdle s = true → E.isIdle t = true → (∀ x ∈ xs, dom x ∧ enc x ≠ .ok []) →
      (∀ y ∈ ys, dom y ∧ enc y ≠ .ok []) → xs.length ≤ ys.length → xs = ys := by
    intro s t xs ys hx hy hs ht dx dy hl
    obtain ⟨zs, z1, _⟩ := C62_prefix h hx (more := []) (by simpa using hy) hs ht (fun x hx => (dx x hx).1)
      (fun y hy => (dy y hy).1) hl
    subst z1
    obtain ⟨x1, x2⟩ := sends_encRun hE hx fun x hx => (dx x hx).1
    obtain ⟨y1, y2⟩ := sends_encRun hE hy fun y hy => (dy y hy).1
    have x3 := hE.complete x2 hs
    have y3 := hE.complete y2 ht
    cases zs with
    | nil => simp
    | cons z zs =>
      exfalso
      obtain ⟨b, hb⟩ := y1 z (by simp)
      have hne := (dy z (by simp)).2
      rw [x3] at y3
      have := congrArg List.length y3
      simp only [List.flatMap_append, List.flatMap_cons, bytesOf_ok hb, List.length_append] at this
      have : b.length = 0 := by omega
      rw [List.length_eq_zero_iff] at this
      subst this
      exact hne hb
  rcases Nat.le_total xs.length ys.length with hl | hl
  · exact main hx hy hs ht dx dy hl
  · exact (main hy hx ht hs dy dx hl).symm

/-- The hypothesis is met by a large family, here by pairs of two numbers, which encode to three bytes. -/
example : ∃ dom enc, Matched true true true (tupleEncoder2 u8Encoder.toEncoder u16beEncoder.toEncoder) (.new, .new)
    (tupleDecoder2 u8Decoder u16beDecoder) (fixInit 1, fixInit 2) dom enc ∧
    ∀ x, dom x ∧ enc x ≠ .ok [] := by
  refine ⟨_, _, .pair (matched_number .u8 true) (matched_number .u16be true), fun x => ⟨⟨trivial, trivial⟩, ?_⟩⟩
  intro h
  have : x.1.toNat < 256 := x.1.toNat_lt
  have : x.2.toNat < 65536 := x.2.toNat_lt
  simp [Except.bind, *] at h
  have := congrArg List.length h.1
  simp [layout, digits] at this

/-- The condition on the lengths is needed: messages without bytes cannot be told from no messages. -/
example : Sends true nullEncoder.toEncoder () () [] [] ∧ Sends true nullEncoder.toEncoder () () [()] [] :=
  ⟨.new, .start (items := []) .new rfl rfl⟩

/-- Without an end of their own, messages run into each other: `"a"`, `"b"` and `"ab"`. -/
example : Sends true utf8Encoder.toEncoder .new ⟨none, 1⟩ ["a", "b"] [97, 98] ∧
    Sends true utf8Encoder.toEncoder .new ⟨none, 2⟩ ["ab"] [97, 98] :=
  ⟨.encode (cap := 9) (e := Eos.new false) (out := [97]) (bs := [98])
      (.start (items := ["a"]) (x := "b") (s' := ⟨some "b", 0⟩) (.encode (cap := 9) (e := Eos.new false) (out := [])
        (.start (items := []) (x := "a") (s' := ⟨some "a", 0⟩) .new rfl rfl) (.inl rfl) rfl) rfl rfl) (.inl rfl) rfl,
    .encode (cap := 9) (e := Eos.new false) (out := [])
        (.start (items := []) (x := "ab") (s' := ⟨some "ab", 0⟩) .new rfl rfl) (.inl rfl) rfl⟩

end Bytecodec.Props
