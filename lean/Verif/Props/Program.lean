import Verif.Lemmas.Program
import Verif.Props.Serde
/-!
# C79: parsers and serializers that call `read` and `write` themselves
-/
namespace Bytecodec.Props

open Spec

variable {α π : Type}

/-! ## Reading -/

/-- C79, any parser: whatever sizes it reads with and however it reacts to the answers, what it is given is, in
order, a beginning of the gathered bytes followed by the last chunk; the rest is left. -/
theorem C79_read_order (P : ReadProgram π α) (p : π) (gathered chunk : Bytes) {res : Res α} {c : ReadChain}
    {log : List ReadRes} (h : P.run (loggedReader chainReader) p (⟨gathered, false, chunk⟩, []) = some (res, c, log)) :
    delivered log ++ (c.first ++ c.second) = gathered ++ chunk := by
  obtain ⟨_, more, e1, e2⟩ := run_logged P p _ _ h (fun h => by cases h)
  simp only [List.nil_append] at e1
  subst e1
  exact e2

/-- C79, any parser: the item is the one the parser returns, and the bytes reported as consumed are those of the
last chunk that the parser was given. -/
theorem C79_consumed (P : ReadProgram π α) (p : π) (gathered chunk : Bytes) {e : Eos} (he : e.isReached = true)
    {x : α} {c : ReadChain} {log : List ReadRes}
    (h : P.run (loggedReader chainReader) p (⟨gathered, false, chunk⟩, []) = some (.ok x, c, log)) :
    (readingDecoder (P.run chainReader p)).decode ⟨none, gathered⟩ chunk e =
      (.ok ((delivered log).length - gathered.length), ⟨some x, []⟩) := by
  obtain ⟨hL, more, e1, e2⟩ := run_logged P p _ _ h (fun h => by cases h)
  simp only [List.nil_append] at e1
  subst e1
  cases hr : P.run chainReader p ⟨gathered, false, chunk⟩ with
  | none =>
    exfalso
    obtain ⟨y, hy⟩ := run_unlog P p _ _ h
    rw [hr] at hy; cases hy
  | some y =>
    obtain ⟨more, hm⟩ := run_forget P chainReader p _ y hr []
    rw [h] at hm
    simp only [Option.some.injEq, Prod.mk.injEq] at hm
    obtain ⟨y1, y2⟩ := y
    obtain ⟨rfl, rfl, _⟩ := hm
    simp only [readingDecoder, he, if_true, hr]
    congr 2
    have := congrArg List.length e2
    simp only [ReadChain.rest, List.length_append] at this
    have h1 := hL.only
    have h2 := hL.le
    have h3 := hL.leFirst
    simp only at h1 h2 h3
    rcases h1 with h1 | h1
    · rw [h1] at this ⊢; omega
    · rw [h1] at this; simp only [List.length_nil] at this; omega

/-- The summary of a parser by which the rest of the model describes it. -/
def summary (run : ReadChain → Option (Res α × ReadChain)) : MonolithicParser α := fun a b =>
  match run ⟨a, false, b⟩ with
  | some (res, c) => (res, a.length - c.first.length + (b.length - c.second.length))
  | none => (.diverge, 0)

/-- C79, any parser: the decoder around it is one of the monolithic decoders of all the other claims. -/
theorem C79_any (P : ReadProgram π α) (p : π) :
    readingDecoder (P.run chainReader p) = monolithicDecoder (summary (P.run chainReader p)) := by
  have hd : (readingDecoder (P.run chainReader p)).decode = (monolithicDecoder (summary (P.run chainReader p))).decode := by
    funext s b e
    simp only [readingDecoder, monolithicDecoder, summary]
    split
    · cases h : P.run chainReader p ⟨s.buf, false, b⟩ with
      | none => rfl
      | some y =>
        obtain ⟨res, c⟩ := y
        have hL := run_later P h (fun h => by cases h)
        cases res with
        | ok x =>
          simp only
          congr 2
          have h1 := hL.only
          have h2 := hL.le
          have h3 := hL.leFirst
          simp only at h1 h2 h3
          rcases h1 with h1 | h1
          · rw [h1]; omega
          · rw [h1]; simp only [List.length_nil]; omega
        | _ => rfl
    · rfl
  have e : readingDecoder (P.run chainReader p) =
      { monolithicDecoder (summary (P.run chainReader p)) with decode := (readingDecoder (P.run chainReader p)).decode } := rfl
  rw [e, hd]

/-- C79, parsers that read through `read_exact`: they cannot see where the gathered bytes end and the last chunk
begins. What they do is what they do on all the bytes in one piece. -/
theorem C79_exact (P : ExactProgram π α) (p : π) (gathered chunk : Bytes) {e : Eos} (he : e.isReached = true) :
    (readingDecoder (P.run chainReader p)).decode ⟨none, gathered⟩ chunk e =
      match eval P p (gathered ++ chunk) with
      | some (.ok x, rest) => (.ok (chunk.length - rest.length), ⟨some x, []⟩)
      | some (.err k, _) => (.err k, ⟨none, gathered⟩)
      | some (.panic, _) => (.panic, ⟨none, gathered⟩)
      | some (.capacity, _) => (.capacity, ⟨none, gathered⟩)
      | some (.diverge, _) => (.diverge, ⟨none, gathered⟩)
      | none => (.diverge, ⟨none, gathered⟩) := by
  obtain ⟨h1, h2⟩ := exact_chain P p gathered chunk
  simp only [readingDecoder, he, if_true]
  cases hv : eval P p (gathered ++ chunk) with
  | none => rw [h1.2 hv]
  | some y =>
    obtain ⟨res, rest⟩ := y
    obtain ⟨c, e1, e2, hL⟩ := h2 res rest hv
    rw [e1]
    cases res with
    | ok x =>
      simp only
      congr 2
      have h1 := hL.only
      have h2 := hL.le
      simp only at h1 h2
      rw [← e2, ReadChain.rest, List.length_append]
      rcases h1 with h1 | h1
      · rw [h1]; omega
      · rw [h1]; simp only [List.length_nil]; omega
    | _ => rfl

/-- What bincode makes of a byte string: the item, and how many bytes it has read. -/
def asBincode (P : ExactProgram π α) (p : π) (b : Bytes) : Option (α × Nat) :=
  match eval P p b with
  | some (.ok x, rest) => some (x, b.length - rest.length)
  | _ => none

/-- C79: a Bincode decoder, with a library that reads through `read_exact` and always returns with an item or with
`InvalidInput`, is the one of C60. -/
theorem C79_bincode (P : ExactProgram π α) (p : π)
    (hP : ∀ b, (∃ x rest, eval P p b = some (.ok x, rest)) ∨ ∃ rest, eval P p b = some (.err .invalidInput, rest)) :
    readingDecoder (P.run chainReader p) = bincodeDecoder (asBincode P p) := by
  have hd : (readingDecoder (P.run chainReader p)).decode = (bincodeDecoder (asBincode P p)).decode := by
    funext s b e
    by_cases he : e.isReached = true
    · obtain ⟨_, h2⟩ := exact_chain P p s.buf b
      simp only [bincodeDecoder, monolithicDecoder, bincodeParser, asBincode, readingDecoder, he, if_true]
      rcases hP (s.buf ++ b) with ⟨x, rest, h⟩ | ⟨rest, h⟩
      · obtain ⟨c, e1, e2, hL⟩ := h2 _ _ h
        rw [e1, h]
        simp only
        congr 2
        have h1 := hL.only
        have h2 := hL.le
        have h3 := hL.leFirst
        simp only at h1 h2 h3
        rw [← e2, ReadChain.rest, List.length_append, List.length_append]
        rcases h1 with h1 | h1
        · rw [h1]; omega
        · rw [h1]; simp only [List.length_nil]; omega
      · obtain ⟨c, e1, _, _⟩ := h2 _ _ h
        rw [e1, h]
    · simp only [bincodeDecoder, monolithicDecoder, readingDecoder, if_neg he]
  have e : readingDecoder (P.run chainReader p) =
      { bincodeDecoder (asBincode P p) with decode := (readingDecoder (P.run chainReader p)).decode } := rfl
  rw [e, hd]

/-- What serde_json makes of a text. -/
def asJson (P : ExactProgram π α) (p : π) (b : Bytes) : Option α :=
  match eval P p b with
  | some (.ok x, _) => some x
  | _ => none

/-- C79: a JSON decoder, with a library that reads through `read_exact`, always returns with an item or with
`InvalidInput`, and reads to the end before it returns an item, is the one of C59. -/
theorem C79_json (P : ExactProgram π α) (p : π)
    (hP : ∀ b, (∃ x, eval P p b = some (.ok x, [])) ∨ ∃ rest, eval P p b = some (.err .invalidInput, rest)) :
    readingDecoder (P.run chainReader p) = jsonDecoder (asJson P p) := by
  rw [C79_bincode P p fun b => (hP b).imp (fun ⟨x, h⟩ => ⟨x, _, h⟩) id]
  have : bincodeParser (asBincode P p) = jsonParser (asJson P p) := by
    funext a b
    simp only [bincodeParser, jsonParser, asBincode, asJson]
    rcases hP (a ++ b) with ⟨x, h⟩ | ⟨rest, h⟩
    · rw [h]; simp
    · rw [h]
  simp only [bincodeDecoder, jsonDecoder, this]

/-- A little library in the manner of bincode: a byte that says how many bytes follow, and those bytes. -/
def countedProgram : ExactProgram (Except ErrorKind (List Bytes)) Bytes where
  step
    | .ok [] => .inr 1
    | .ok [c] => .inr (c.headD 0).toNat
    | .ok (_ :: b :: _) => .inl (.ok b)
    | .error k => .inl (.err k)
  resume
    | .ok l, .ok b => .ok (l ++ [b])
    | _, _ => .error .invalidInput

theorem counted_eval (b : Bytes) : eval countedProgram (.ok []) b =
    match b with
    | [] => some (.err .invalidInput, [])
    | n :: r => if n.toNat ≤ r.length then some (.ok (r.take n.toNat), r.drop n.toNat)
        else some (.err .invalidInput, []) := by
  rw [eval]
  cases b with
  | nil =>
    simp only [countedProgram, nextBytes]
    rw [eval]
    rfl
  | cons n r =>
    have h1 : nextBytes 1 (n :: r) = (.ok [n], r) := by simp [nextBytes]
    have e1 : countedProgram.step (.ok []) = .inr 1 := rfl
    rw [e1]
    simp only [h1]
    rw [eval]
    have e2 : countedProgram.step (countedProgram.resume (.ok []) (.ok [n])) = .inr n.toNat := rfl
    rw [e2]
    simp only
    by_cases h : n.toNat ≤ r.length
    · have h2 : nextBytes n.toNat r = (.ok (r.take n.toNat), r.drop n.toNat) := by simp [nextBytes, h]
      rw [h2, if_pos h, eval]; rfl
    · have h2 : nextBytes n.toNat r = (.error .unexpectedEof, []) := by simp [nextBytes, h]
      rw [h2, if_neg h, eval]; rfl

/-- It meets the hypothesis of `C79_bincode`, and reads across the boundary of the two slices. -/
example : (∀ b, (∃ x rest, eval countedProgram (.ok []) b = some (.ok x, rest)) ∨
      ∃ rest, eval countedProgram (.ok []) b = some (.err .invalidInput, rest)) ∧
    (readingDecoder (countedProgram.run chainReader (.ok []))).decode ⟨none, [3, 10]⟩ [11, 12, 13] (Eos.new true) =
      (.ok 2, ⟨some [10, 11, 12], []⟩) := by
  constructor
  · intro b
    rw [counted_eval]
    cases b with
    | nil => exact .inr ⟨_, rfl⟩
    | cons n r =>
      simp only
      split
      · exact .inl ⟨_, _, rfl⟩
      · exact .inr ⟨_, rfl⟩
  · rw [C79_exact _ _ _ _ rfl, counted_eval]
    rfl

/-- A parser that takes a single `read` for the whole input. -/
def hastyProgram : ReadProgram (Option ReadRes) Bytes where
  step
    | none => .inr 100
    | some (.data bs) => .inl (.ok bs)
    | some (.error _) => .inl (.err .other)
  resume _ a := some a

theorem hasty_run (R : Reader ReadChain) (c : ReadChain) : hastyProgram.run R none c =
    some (match (R.read c 100).1 with | .data bs => .ok bs | .error _ => .err .other, (R.read c 100).2) := by
  rw [ReadProgram.run]
  simp only [hastyProgram]
  rw [ReadProgram.run]
  cases (R.read c 100).1 <;> rfl

/-- C79 for parsers that may read short: what they make of the bytes depends on how the bytes came. The same two
bytes in one chunk give one item, in two chunks another, and the second byte is not consumed. -/
theorem C79_short_read_fails :
    (readingDecoder (hastyProgram.run chainReader none)).decode ⟨none, []⟩ [1, 2] (Eos.new true) =
      (.ok 2, ⟨some [1, 2], []⟩) ∧
    (readingDecoder (hastyProgram.run chainReader none)).decode ⟨none, [1]⟩ [2] (Eos.new true) =
      (.ok 0, ⟨some [1], []⟩) := by
  constructor <;> simp only [readingDecoder, hasty_run] <;> rfl

/-- The hasty parser meets the hypothesis of `C79_consumed`. -/
example : hastyProgram.run (loggedReader chainReader) none (⟨[1], false, [2]⟩, []) =
    some (.ok [1], ⟨[], false, [2]⟩, [.data [1]]) := by
  rw [ReadProgram.run]
  simp only [hastyProgram]
  rw [ReadProgram.run]
  rfl

/-! ## Writing -/

/-- C79, any serializer: whatever pieces it writes and however it reacts to the answers, the bytes accepted from it
go in order, first into the caller's buffer until that is full, then into the vector behind it. -/
theorem C79_write_order (P : WriteProgram π) (p : π) (cap : Nat) {res : Res Unit} {w : ChainState}
    {log : List (Bytes × WriteRes)}
    (h : P.run (loggedWriter chainWriter) p (⟨[], cap, []⟩, []) = some (res, w, log)) :
    w.a = (accepted log).take cap ∧ w.b = (accepted log).drop cap := by
  obtain ⟨⟨_, k1, k2⟩, more, e1, e2⟩ := write_logged P (cap := cap) p _ _ h ⟨by simp, by simp, fun h => absurd rfl h⟩
  simp only [List.nil_append, List.append_nil] at e1 e2 k1 k2
  subst e1
  rw [e2]
  by_cases hb : w.b = []
  · rw [hb, List.append_nil, List.take_of_length_le k1, List.drop_eq_nil_of_le k1]
    exact ⟨rfl, rfl⟩
  · have := k2 hb
    subst this
    simp

/-- C79, any serializer that returns `Ok`: `encode` puts out what fits of the bytes accepted from it and keeps the
others for the next call, as if they had been serialized in one piece. -/
theorem C79_write_any (P : WriteProgram π) (init : α → π) (s : MonoEncState α) (x : α) (hs : s.item = some x)
    (cap : Nat) (e : Eos) {res : Res Unit} {w : ChainState} {log : List (Bytes × WriteRes)}
    (h : P.run (loggedWriter chainWriter) (init x) (⟨[], cap, []⟩, []) = some (res, w, log)) :
    (writingEncoder fun x => P.run chainWriter (init x)).encode s cap e =
      (monolithicEncoder fun _ => ([accepted log], res)).encode s cap e := by
  obtain ⟨h1, h2⟩ := C79_write_order P _ cap h
  cases hr : P.run chainWriter (init x) ⟨[], cap, []⟩ with
  | none =>
    exfalso
    obtain ⟨y, hy⟩ := write_unlog P _ _ _ h
    rw [hr] at hy; cases hy
  | some y =>
    obtain ⟨more, hm⟩ := write_forget P chainWriter _ _ y hr []
    rw [h] at hm
    simp only [Option.some.injEq, Prod.mk.injEq] at hm
    obtain ⟨y1, y2⟩ := y
    obtain ⟨rfl, rfl, _⟩ := hm
    obtain ⟨a, room, b⟩ := w
    simp only at h1 h2
    simp only [writingEncoder, monolithicEncoder, hs, hr, serialize_chain, List.flatten_cons, List.flatten_nil,
      List.append_nil, List.nil_append]
    cases res with
    | ok u => simp only [Res.step, ← h1, ← h2]
    | _ => rfl

/-- C79, serializers that keep writing until everything is written: the encoder around them is one of the
monolithic encoders of all the other claims, for the text they write. -/
theorem C79_text (P : WriteProgram π) (init : α → π) (text : α → Bytes) (res : α → Res Unit)
    (h : ∀ x, WritesText P (res x) (init x) (text x)) :
    writingEncoder (fun x => P.run chainWriter (init x)) = monolithicEncoder fun x => ([text x], res x) := by
  have hd : (writingEncoder fun x => P.run chainWriter (init x)).encode =
      (monolithicEncoder fun x => ([text x], res x)).encode := by
    funext s cap e
    cases hs : s.item with
    | none => simp only [writingEncoder, monolithicEncoder, hs]
    | some x =>
      simp only [writingEncoder, monolithicEncoder, hs, serialize_chain, List.flatten_cons, List.flatten_nil,
        List.append_nil, List.nil_append, write_text (h x) [] cap [] (fun h => absurd rfl h)]
      cases res x <;> rfl
  have e : writingEncoder (fun x => P.run chainWriter (init x)) =
      { monolithicEncoder (fun x => ([text x], res x)) with
        encode := (writingEncoder fun x => P.run chainWriter (init x)).encode } := rfl
  rw [e, hd]

/-- A serializer in the manner of `write_all`: it writes what is left until nothing is left. -/
def patientProgram : WriteProgram Bytes where
  step b := if b.isEmpty then .inl (.ok ()) else .inr b
  resume
    | b, .wrote n => b.drop n
    | b, .error _ => b

/-- It meets the hypothesis of `C79_text`. -/
theorem patient_text (b : Bytes) : WritesText patientProgram (.ok ()) b b := by
  generalize hn : b.length = n
  induction n using Nat.strongRecOn generalizing b with
  | ind n ih =>
    cases b with
    | nil => exact .done rfl
    | cons x xs =>
      have := @WritesText.write _ patientProgram (.ok ()) (x :: xs) (x :: xs) [] rfl (fun h => by cases h)
        (fun k h0 h1 => by
          rw [List.append_nil]
          exact ih ((x :: xs).drop k).length (by simp only [List.length_drop]; simp only [List.length_cons] at *; omega)
            _ rfl)
      rwa [List.append_nil] at this

example : (writingEncoder fun x => patientProgram.run chainWriter x).encode ⟨some [1, 2, 3], .new⟩ 2 (Eos.new false) =
    (.ok [1, 2], ⟨none, ⟨some [3], 0⟩⟩) := by
  rw [C79_text patientProgram (fun x => x) (fun x => x) (fun _ => .ok ()) patient_text]
  simp only [monolithicEncoder, serialize_chain]
  rfl

/-- A serializer that calls `write` once and does not look at the answer. -/
def carelessProgram : WriteProgram (Option Bytes) where
  step
    | some b => .inr b
    | none => .inl (.ok ())
  resume _ _ := none

/-- C79 for serializers that ignore short writes: what they put out depends on the caller's buffer. -/
theorem C79_short_write_fails :
    ((writingEncoder fun x => carelessProgram.run chainWriter (some x)).encode ⟨some [1, 2, 3], .new⟩ 4 (Eos.new false)) =
      (.ok [1, 2, 3], ⟨none, .new⟩) ∧
    ((writingEncoder fun x => carelessProgram.run chainWriter (some x)).encode ⟨some [1, 2, 3], .new⟩ 2 (Eos.new false)) =
      (.ok [1, 2], ⟨none, .new⟩) := by
  have h : ∀ x (w : ChainState), carelessProgram.run chainWriter (some x) w = some (.ok (), (chainWriter.write w x).2) := by
    intro x w
    rw [WriteProgram.run]
    simp only [carelessProgram]
    rw [WriteProgram.run]
  constructor <;> simp only [writingEncoder, h] <;> rfl

/-- The careless serializer meets the hypothesis of `C79_write_any`. -/
example : carelessProgram.run (loggedWriter chainWriter) (some [1, 2, 3]) (⟨[], 2, []⟩, []) =
    some (.ok (), ⟨[1, 2], 0, []⟩, [([1, 2, 3], .wrote 2)]) := by
  rw [WriteProgram.run]
  simp only [carelessProgram]
  rw [WriteProgram.run]
  rfl

end Bytecodec.Props
