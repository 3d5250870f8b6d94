import Verif.Lemmas.Restart
import Verif.Props.Receive
import Verif.Props.Reuse
import Verif.Props.Pipeline
/-!
# C92: a receiver can crash at any moment and start again

`Journal` is a receiver with a record that survives crashes; `Reconnecting` is a sender and a receiver whose
connection breaks now and then. `Reusable` is every way of assembling decoders for one item after the other (C55),
`Streamable Plain` and `SafeFrom` are as in C87.
-/
namespace Bytecodec.Props

open Bytecodec Bytecodec.Spec

variable {σ τ α : Type} {p q : Bool} {D : Decoder σ α} {s₀ : σ} {stream store store' : Bytes} {t : Journal σ α}

/-- C92 (exactly once): however often and whenever the receiver crashes, the recorded items are the first items of the
stream (`Means`: each decoded from all that is left, in one piece), and the recorded position is where the last of them
ends. -/
theorem C92_exactly_once_partial (hp : Streamable Plain p q D s₀) (hr : Reusable D s₀) (hS : SafeFrom D s₀)
    (hl : stream.length < 2 ^ 64) (hne : store ≠ []) (hc : store.length < 2 ^ 64)
    (h : JournalSteps D s₀ stream (.new s₀ store stream) t) :
    t.mark ≤ stream.length ∧ ∃ s, Means D (Eos.new true) s₀ stream t.saved s (stream.drop t.mark) := by
  obtain ⟨_, _, _, hI⟩ := journal_inv (streamable_stalls (fun h => h.1 rfl) (fun h => h.2.1 rfl) hp)
    (streamable_splits hp) hS (fun _ _ _ => C55_asNew_partial hr) hl hne hc h
  exact ⟨hI.le, hI.means⟩

/-- C92 (as if it had not crashed): of a receiver that crashes, and one that does not, one has got what the other
has got, and perhaps more. -/
theorem C92_as_undisturbed_partial (hp : Streamable Plain p q D s₀) (hr : Reusable D s₀) (hS : SafeFrom D s₀)
    (hl : stream.length < 2 ^ 64) (hne : store ≠ []) (hc : store.length < 2 ^ 64) (hc' : store'.length < 2 ^ 64)
    (h : JournalSteps D s₀ stream (.new s₀ store stream) t)
    {t' : Receiver σ α} (h' : ReceiveSteps D (.new s₀ store' stream) t') : t.saved <+: t'.got ∨ t'.got <+: t.saved := by
  obtain ⟨_, _, h1⟩ := C92_exactly_once_partial hp hr hS hl hne hc h
  obtain ⟨_, _, h2⟩ := C87_buffer_meaning_partial hp hS hl hc' h'
  rcases Nat.le_total t.saved.length t'.got.length with hle | hle
  · exact .inl (Means.prefix h1 h2 hle)
  · exact .inr (Means.prefix h2 h1 hle)

/-- C92 (nothing lost): if, by its meaning, the stream goes on with the item `x`, the receiver can go on to `x` from
wherever it is, crashes or not, whatever has happened before. -/
theorem C92_nothing_lost_partial (hp : Streamable Plain p q D s₀) (hr : Reusable D s₀) (hS : SafeFrom D s₀)
    (hl : stream.length < 2 ^ 64) (hne : store ≠ []) (hc : store.length < 2 ^ 64)
    (h : JournalSteps D s₀ stream (.new s₀ store stream) t) {x : α} {u : σ} {rest : Bytes}
    (hm : Means D (Eos.new true) s₀ stream (t.saved ++ [x]) u rest) :
    ∃ t', JournalSteps D s₀ stream t t' ∧ t'.saved = t.saved ++ [x] := by
  have hA : AsNew D s₀ := fun _ _ _ => C55_asNew_partial hr
  obtain ⟨_, m₀, before, hI⟩ := journal_inv (streamable_stalls (fun h => h.1 rfl) (fun h => h.2.1 rfl) hp)
    (streamable_splits hp) hS hA hl hne hc h
  obtain ⟨s1, h1⟩ := hI.means₀
  obtain ⟨s2, h2, _⟩ := Means.split hA h1 hm (ys := t.rcv.got ++ [x]) (by rw [hI.saved, List.append_assoc])
  obtain ⟨r, g1, g2⟩ := C87_delivers_partial hp hS (by rw [List.length_drop]; omega) hI.cap hI.ne hI.run h2
  obtain ⟨t', k1, _, k2⟩ := journal_lift g1 (t := t) rfl hI.saved
  exact ⟨t', k1, by rw [k2, g2, ← List.append_assoc, ← hI.saved]⟩

/-- Sixteen-bit numbers. The first receiver reads `[1, 0, 2]` into its buffer, takes the number 1, decodes the half of
the next number, and crashes. The second one starts at position 2 with a buffer of another size. -/
example : ∃ t : Journal CopyableState UInt16,
    JournalSteps u16leDecoder (fixInit 2) [1, 0, 2, 0, 3] (.new (fixInit 2) [0, 0, 0] [1, 0, 2, 0, 3]) t ∧
    t.saved = [1] ∧ t.mark = 2 ∧ t.rcv = .new (fixInit 2) [9] [2, 0, 3] ∧
    Streamable Plain true false u16leDecoder (fixInit 2) ∧ Reusable u16leDecoder (fixInit 2) ∧
    Means u16leDecoder (Eos.new true) (fixInit 2) [1, 0, 2, 0, 3] [1, 2] ⟨[2, 0], 0⟩ [3] := by
  have k1 := JournalSteps.step (.refl (D := u16leDecoder) (s₀ := fixInit 2) (stream := [1, 0, 2, 0, 3])
    (t := .new (fixInit 2) [0, 0, 0] [1, 0, 2, 0, 3]))
    (.work (.fill (R := scriptReader) (r := [[1, 0, 2]]) (unread' := [0, 3]) scriptReader_honest
      (fill_full (by decide) (by decide)) rfl (fun h => by simp at h)) rfl)
  have k2 := JournalSteps.step k1 (.work (.decode rfl rfl) rfl)
  have k3 := JournalSteps.step k2 (.take (x := 1) (.finish rfl rfl) rfl)
  have k4 := JournalSteps.step k3 (.work (.decode rfl rfl) rfl)
  have k5 := JournalSteps.step k4 (.crash [9] (by decide) (by decide))
  refine ⟨_, k5, rfl, rfl, rfl, .number true false _ 2, .number _ 2, ?_⟩
  exact .item (n := 2) (.item (n := 2) .new (feed_one.2 ⟨_, rfl, rfl⟩)) (feed_one.2 ⟨_, rfl, rfl⟩)

/-- C92 (with limits and checks): if the decoder has limits (`max_bytes`) and checks of its own, at any depth
(`Stripped` is C86), it may reject what the decoder without them accepts, and may do so after one crash and not after
another. But the recorded items are the first ones of the stream all the same. -/
theorem C92_limits {D' : Decoder τ α} {s' : τ} (hs : Stripped D s₀ D' s') (hp : Streamable Plain p q D' s')
    (hr : Reusable D' s') (hS : SafeFrom D' s') (hl : stream.length < 2 ^ 64) (hne : store ≠ [])
    (hc : store.length < 2 ^ 64) (h : JournalSteps D s₀ stream (.new s₀ store stream) t) :
    t.mark ≤ stream.length ∧ ∃ u, Means D' (Eos.new true) s' stream t.saved u (stream.drop t.mark) := by
  obtain ⟨R, hk, hr₀⟩ := stripped_kept hs
  obtain ⟨_, _, h'⟩ := journal_retained hk hr₀ h
  exact C92_exactly_once_partial hp hr hS hl hne hc h'

/-- At most two bytes per number. -/
example : Stripped (maxBytesDecoder u16beDecoder) (.new (fixInit 2) 2) u16beDecoder (fixInit 2) ∧
    Streamable Plain true false u16beDecoder (fixInit 2) ∧ Reusable u16beDecoder (fixInit 2) ∧
    SafeFrom u16beDecoder (fixInit 2) :=
  ⟨.maxBytes _ .same, .number true false _ 2, .number _ 2, C05_safe (.number _ 2 trivial)⟩

/-! ## A sender and a receiver whose connection breaks -/

/-- C92 (reconnecting): however often the connection breaks, and at whatever moments, what the receiver has got is the
beginning of the messages: none is lost, duplicated or damaged. (`z` is any message with a non-empty encoding.) -/
theorem C92_reconnect {strict : Bool} {E : Encoder τ α} {sE : τ} {sD : σ} {dom : α → Prop}
    {enc : α → Except ErrorKind Bytes} (hM : Matched strict true true E sE D sD dom enc) (hS : SafeFrom D sD)
    {z : α} {bz : Bytes} (hz : dom z) (hbz : enc z = .ok bz) (hzne : bz ≠ []) {msgs done : List α}
    (hl : (bytesOfAll enc msgs).length < 2 ^ 64) (h : Reconnecting E sE D sD dom msgs done) : done <+: msgs := by
  induction h with
  | start => exact List.nil_prefix
  | @broken done wstore rstore p _ hc hp hpre hcl ih =>
    obtain ⟨rest, rfl⟩ := ih
    rw [List.drop_left] at hpre
    obtain ⟨more, hmore⟩ := hpre
    have hlen : (bytesOfAll enc p.sent).length < 2 ^ 64 := by
      rw [← hmore] at hl
      simp only [bytesOfAll, List.flatMap_append, List.length_append] at hl ⊢
      omega
    have h1 := C51_in_order hM hS hc hp hlen (.inl ⟨rfl, rfl⟩)
    have h2 := C51_nothing_invented hM hS hc hz hbz hzne hp hcl
    rw [List.take_of_length_le h2] at h1
    rw [List.prefix_append_right_inj, ← hmore, h1]
    exact (List.take_prefix _ _).trans (List.prefix_append _ _)

/-- C92 (reconnecting): and over the next connection, with buffers of at least one byte, all the others can be
delivered. -/
theorem C92_reconnect_delivers {strict : Bool} {E : Encoder τ α} {sE : τ} {sD : σ} {dom : α → Prop}
    {enc : α → Except ErrorKind Bytes} (hM : Matched strict true true E sE D sD dom enc) (hS : SafeFrom D sD)
    {z : α} {bz : Bytes} (hz : dom z) (hbz : enc z = .ok bz) (hzne : bz ≠ []) {msgs done : List α}
    (hd : ∀ x ∈ msgs, dom x ∧ ∃ b, enc x = .ok b) {wstore rstore : Bytes} (hw : wstore ≠ []) (hr : rstore ≠ [])
    (hcap : rstore.length < 2 ^ 64) (hl : (bytesOfAll enc msgs).length < 2 ^ 64)
    (h : Reconnecting E sE D sD dom msgs done) :
    ∃ p, PipeSteps E D dom (.new sE sD wstore rstore) p ∧ p.sent = msgs.drop done.length ∧ done ++ p.got = msgs := by
  obtain ⟨rest, rfl⟩ := C92_reconnect hM hS hz hbz hzne hl h
  rw [List.drop_left]
  obtain ⟨p, h1, h2, h3, _, _⟩ := pipe_send (matched_emits hM) hS hcap (List.length_pos_iff.mpr hw) rest
    (fun x hx => hd x (List.mem_append_right _ hx)) (wstore := wstore)
  obtain ⟨q, h4, h5, h6⟩ := C51_delivers hM hS hcap hw hr h1 (by
    rw [h2]
    simp only [bytesOfAll, List.flatMap_append, List.length_append] at hl ⊢
    omega) (.inl ⟨rfl, rfl⟩)
  refine ⟨q, pipe_trans h1 h4, by rw [h5, h2], ?_⟩
  rw [h6, h3, h2]
  simp

/-- Arrays of two bytes. Over the first connection `[7, 8]` arrives and `[1, 2]` is handed to the encoder; then it
breaks. -/
example : Reconnecting (bytesEncoder (id : Bytes → Bytes)).toEncoder .new copyableBytesDecoder (.new [0, 0])
      (·.length = 2) [[7, 8], [1, 2], [3, 4]] [[7, 8]] ∧
    Matched true true true (bytesEncoder (id : Bytes → Bytes)).toEncoder .new copyableBytesDecoder (.new [0, 0])
      (·.length = 2) (fun x => .ok x) := by
  refine ⟨?_, .copyable true [0, 0]⟩
  have k1 := PipeSteps.step (.refl (E := (bytesEncoder (id : Bytes → Bytes)).toEncoder) (D := copyableBytesDecoder)
    (dom := (·.length = 2)) (p := .new .new (.new [0, 0]) [0, 0] [0, 0])) (.start [7, 8] rfl rfl rfl rfl)
  have k2 := PipeSteps.step k1 (.encode rfl)
  obtain ⟨b2, log, h3, h4, _, h6⟩ := flush_all (b := ⟨[7, 8], 0, 2, .normal, none, []⟩) ⟨by decide, by decide, by decide⟩
  have k3 := PipeSteps.step k2 (.flush vecWriter_honest h3 h6)
  have k4 := PipeSteps.step k3 (.fill (R := scriptReader) (r := [[7, 8]]) (wire' := []) scriptReader_honest
    (fill_full (by simp) rfl) (by simp only [h4]; rfl) (fun h => by simp at h))
  have k5 := PipeSteps.step k4 (.decode rfl rfl)
  have k6 := PipeSteps.step k5 (.finish rfl rfl)
  have k7 := PipeSteps.step k6 (.start [1, 2] rfl rfl rfl rfl)
  exact .broken .start (by decide) k7 ⟨[[3, 4]], rfl⟩ rfl

end Bytecodec.Props
