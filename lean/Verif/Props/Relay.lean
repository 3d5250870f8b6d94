import Verif.Lemmas.Relay
import Verif.Lemmas.Numbers
/-!
# C103: a relay passes on every message, translated, in order

A program between a sender and a receiver that decodes messages of one format, translates each of them and encodes the
results in another format. It has two buffers of its own and no queue; the pipes on its two sides have their own
schedules.
-/
namespace Bytecodec.Props

open Spec

variable {τ σ α τ' σ' β : Type} {strict strict' delim again delim' again' : Bool} {E : Encoder τ α} {sE : τ}
  {D : Decoder σ α} {sD : σ} {dom : α → Prop} {enc : α → Except ErrorKind Bytes} {E' : Encoder τ' β} {sE' : τ'}
  {D' : Decoder σ' β} {sD' : σ'} {dom' : β → Prop} {enc' : β → Except ErrorKind Bytes} {f : α → β}
  {wstore rstore wstore' rstore' : Bytes} {r : Relay τ σ α τ' σ' β}

/-- C103 (in order): whatever the sender, the relay, the receiver and the two pipes do, with buffers of any capacities:
the messages the receiver gets are those of the sender, translated, in the same order. (`z` is any message of the second
format with a non-empty encoding.) -/
theorem C103_in_order (hM : Matched strict delim again E sE D sD dom enc) (hS : SafeFrom D sD)
    (hM' : Matched strict' true true E' sE' D' sD' dom' enc') (hS' : SafeFrom D' sD')
    (hcap : rstore.length < 2 ^ 64) (hcap' : rstore'.length < 2 ^ 64)
    {z : β} {bz : Bytes} (hz : dom' z) (hbz : enc' z = .ok bz) (hne : bz ≠ [])
    (h : RelaySteps E D dom E' D' dom' f ⟨.new sE sD wstore rstore, .new sE' sD' wstore' rstore'⟩ r)
    (hl : (bytesOfAll enc r.up.sent).length < 2 ^ 64) (ha : delim = true ∧ again = true ∨ r.up.sent.length ≤ 1)
    (hl' : (bytesOfAll enc' r.down.sent).length < 2 ^ 64) (hc : r.down.closed = false) :
    r.down.got.take r.up.sent.length = (r.up.sent.map f).take r.down.got.length := by
  obtain ⟨h1, h2, h3⟩ := relay_pipes h rfl
  have o1 := C51_in_order hM hS hcap h1 hl ha
  have o2 := C51_in_order hM' hS' hcap' h2 hl' (.inl ⟨rfl, rfl⟩)
  have o3 := C51_nothing_invented hM' hS' hcap' hz hbz hne h2 hc
  rw [List.take_of_length_le o3, h3] at o2
  have hlen : r.down.got.length ≤ r.up.got.length := by
    rw [h3] at o3
    simpa using o3
  rw [o2, List.take_take, Nat.min_comm, ← List.take_take, ← List.map_take, o1, List.map_take, List.take_take,
    List.length_take, List.length_map]

/-- C103 (nothing invented): as long as neither pipe is closed, the receiver has got the first messages of the sender,
translated, and nothing else. -/
theorem C103_prefix (hM : Matched strict true true E sE D sD dom enc) (hS : SafeFrom D sD)
    (hM' : Matched strict' true true E' sE' D' sD' dom' enc') (hS' : SafeFrom D' sD')
    (hcap : rstore.length < 2 ^ 64) (hcap' : rstore'.length < 2 ^ 64)
    {y : α} {byt : Bytes} (hy : dom y) (hby : enc y = .ok byt) (hney : byt ≠ [])
    {z : β} {bz : Bytes} (hz : dom' z) (hbz : enc' z = .ok bz) (hne : bz ≠ [])
    (h : RelaySteps E D dom E' D' dom' f ⟨.new sE sD wstore rstore, .new sE' sD' wstore' rstore'⟩ r)
    (hl : (bytesOfAll enc r.up.sent).length < 2 ^ 64) (hl' : (bytesOfAll enc' r.down.sent).length < 2 ^ 64)
    (hc : r.up.closed = false) (hc' : r.down.closed = false) : r.down.got <+: r.up.sent.map f := by
  obtain ⟨h1, h2, h3⟩ := relay_pipes h rfl
  have o1 := C51_nothing_invented hM hS hcap hy hby hney h1 hc
  have o2 := C51_nothing_invented hM' hS' hcap' hz hbz hne h2 hc'
  have o := C103_in_order hM hS hM' hS' hcap hcap' hz hbz hne h hl (.inl ⟨rfl, rfl⟩) hl' hc'
  rw [h3, List.length_map] at o2
  rw [List.take_of_length_le (by omega)] at o
  rw [o]
  exact List.take_prefix _ _

/-- C103 (no errors): when the relay's decoder is idle with a message that was sent, and its encoder is idle, then the
message can be passed on: `finish_decoding` returns the next message of the sender, and `start_encoding` accepts its
translation. -/
theorem C103_no_errors (hM : Matched strict delim again E sE D sD dom enc) (hS : SafeFrom D sD)
    (hM' : Matched strict' delim' again' E' sE' D' sD' dom' enc') (hS' : SafeFrom D' sD')
    (hcap : rstore.length < 2 ^ 64) (hcap' : rstore'.length < 2 ^ 64)
    (h : RelaySteps E D dom E' D' dom' f ⟨.new sE sD wstore rstore, .new sE' sD' wstore' rstore'⟩ r)
    (hl : (bytesOfAll enc r.up.sent).length < 2 ^ 64) (ha : delim = true ∧ again = true ∨ r.up.sent.length ≤ 1)
    (hf : ∀ x ∈ r.up.sent, dom' (f x) ∧ ∃ b, enc' (f x) = .ok b)
    (hlt : r.up.got.length < r.up.sent.length) (hi : D.isIdle r.up.dec = true) (hi' : E'.isIdle r.down.enc = true)  :
    (D.finish r.up.dec).1 = .ok r.up.sent[r.up.got.length] ∧
      (E'.start r.down.enc (f r.up.sent[r.up.got.length])).1 = .ok () := by
  obtain ⟨h1, h2, _⟩ := relay_pipes h rfl
  have n1 := ((C51_no_errors hM hS hcap h1).2.2 hl ha hlt).2 hi
  obtain ⟨hd, b, hb⟩ := hf _ (List.getElem_mem hlt)
  refine ⟨?_, (C51_no_errors hM' hS' hcap' h2).1 hi' _ b hd hb⟩
  rw [List.getElem?_eq_getElem hlt] at n1
  exact Option.some.inj n1

/-- C103 (everything arrives): from every situation in which the relay has not closed its pipe, the system can be run so
that all messages handed over by the sender arrive at the receiver, translated. Buffers of one byte are enough. (That no
more messages were taken than sent is `C51_nothing_invented` while the sender has not closed its pipe.) -/
theorem C103_delivers (hM : Matched strict delim again E sE D sD dom enc) (hS : SafeFrom D sD)
    (hM' : Matched strict' delim' again' E' sE' D' sD' dom' enc') (hS' : SafeFrom D' sD')
    (hcap : rstore.length < 2 ^ 64) (hcap' : rstore'.length < 2 ^ 64) (hw : wstore ≠ []) (hr : rstore ≠ [])
    (hw' : wstore' ≠ []) (hr' : rstore' ≠ [])
    (h : RelaySteps E D dom E' D' dom' f ⟨.new sE sD wstore rstore, .new sE' sD' wstore' rstore'⟩ r)
    (hl : (bytesOfAll enc r.up.sent).length < 2 ^ 64) (ha : delim = true ∧ again = true ∨ r.up.sent.length ≤ 1)
    (hl' : (bytesOfAll enc' (r.up.sent.map f)).length < 2 ^ 64)
    (ha' : delim' = true ∧ again' = true ∨ r.up.sent.length ≤ 1)
    (hf : ∀ x ∈ r.up.sent, dom' (f x) ∧ ∃ b, enc' (f x) = .ok b)
    (hg : r.up.got.length ≤ r.up.sent.length) (hc : r.down.closed = false) :
    ∃ t, RelaySteps E D dom E' D' dom' f r t ∧ t.up.sent = r.up.sent ∧ t.up.got = r.up.sent ∧
      t.down.got = r.down.got ++ (r.up.sent.map f).drop r.down.got.length := by
  obtain ⟨h1, h2, h3⟩ := relay_pipes h rfl
  have o1 := C51_in_order hM hS hcap h1 hl ha
  rw [List.take_of_length_le hg] at o1
  obtain ⟨p, k1, k2, k3⟩ := C51_delivers hM hS hcap hw hr h1 hl ha
  have hall : p.got = r.up.sent := by
    rw [k3]
    conv => lhs; lhs; rw [o1]
    exact List.take_append_drop _ _
  have hdrop : p.got.drop r.up.got.length = r.up.sent.drop r.up.got.length := by rw [hall]
  obtain ⟨q, m1, m2, m3, m4, m5⟩ := relay_up (f := f) (matched_emits hM') hS' hcap' hw' k1 h2 hc
    (fun x hx => hf x (by rw [hall] at hx; exact List.mem_of_mem_drop hx))
  have hsent : q.sent = r.up.sent.map f := by
    rw [m5, h3, ← List.map_append, hdrop]
    conv => lhs; rhs; lhs; rw [o1]
    rw [List.take_append_drop]
  obtain ⟨q', n1, n2, n3⟩ := C51_delivers hM' hS' hcap' hw' hr' m2 (by rw [hsent]; exact hl')
    (by rw [hsent, List.length_map]; exact ha')
  refine ⟨⟨p, q'⟩, relay_trans m1 (relay_down n1 (by rw [n2]; exact Nat.le_refl _)), k2, hall, ?_⟩
  rw [n3, m4, hsent]

/-! ## Any number of relays -/

section

variable {τ σ α : Nat → Type} {strict delim again : Nat → Bool} {E : ∀ i, Encoder (τ i) (α i)} {sE : ∀ i, τ i}
  {D : ∀ i, Decoder (σ i) (α i)} {sD : ∀ i, σ i} {dom : ∀ i, α i → Prop} {enc : ∀ i, α i → Except ErrorKind Bytes}
  {f : ∀ i, α i → α (i + 1)} {wstore rstore : Nat → Bytes} {n : Nat} {c : Chain τ σ α}

/-- C103 for any number of relays, each with its own formats, translation and buffers: as long as no pipe is closed, the
receiver has got the first messages of the sender after all translations, and nothing else. -/
theorem C103_chain_prefix (hM : ∀ i ≤ n, Matched (strict i) true true (E i) (sE i) (D i) (sD i) (dom i) (enc i))
    (hS : ∀ i ≤ n, SafeFrom (D i) (sD i)) (hcap : ∀ i ≤ n, (rstore i).length < 2 ^ 64)
    (hz : ∀ i ≤ n, ∃ z b, dom i z ∧ enc i z = .ok b ∧ b ≠ [])
    (h : ChainSteps E D dom f n (fun i => .new (sE i) (sD i) (wstore i) (rstore i)) c)
    (hl : ∀ i ≤ n, (bytesOfAll (enc i) (c i).sent).length < 2 ^ 64) (hc : ∀ i ≤ n, (c i).closed = false) :
    (c n).got <+: (c 0).sent.map (translated f n) := by
  obtain ⟨h1, h2⟩ := chain_pipes h (fun _ _ => rfl)
  have own : ∀ i ≤ n, (c i).got <+: (c i).sent := by
    intro i hi
    obtain ⟨z, b, z1, z2, z3⟩ := hz i hi
    have o1 := C51_in_order (hM i hi) (hS i hi) (hcap i hi) (h1 i) (hl i hi) (.inl ⟨rfl, rfl⟩)
    have o2 := C51_nothing_invented (hM i hi) (hS i hi) (hcap i hi) z1 z2 z3 (h1 i) (hc i hi)
    rw [List.take_of_length_le o2] at o1
    rw [o1]
    exact List.take_prefix _ _
  have all : ∀ k ≤ n, (c k).got <+: (c 0).sent.map (translated f k) := by
    intro k
    induction k with
    | zero =>
      intro hk
      have : (c 0).sent.map (translated f 0) = (c 0).sent := List.map_id _
      rw [this]
      exact own 0 hk
    | succ k ih =>
      intro hk
      have e : (c 0).sent.map (translated f (k + 1)) = ((c 0).sent.map (translated f k)).map (f k) := by
        rw [List.map_map]
        rfl
      rw [e]
      refine (own (k + 1) hk).trans ?_
      rw [h2 k (by omega)]
      exact (ih (by omega)).map (f k)
  exact all n (Nat.le_refl n)

/-- C103 for any number of relays: from every situation in which no relay has closed its pipe, the system can be run so
that all messages of the sender arrive at the far end, after all translations. -/
theorem C103_chain_delivers
    (hM : ∀ i ≤ n, Matched (strict i) (delim i) (again i) (E i) (sE i) (D i) (sD i) (dom i) (enc i))
    (hS : ∀ i ≤ n, SafeFrom (D i) (sD i)) (hcap : ∀ i ≤ n, (rstore i).length < 2 ^ 64)
    (hw : ∀ i ≤ n, wstore i ≠ []) (hr : ∀ i ≤ n, rstore i ≠ [])
    (h : ChainSteps E D dom f n (fun i => .new (sE i) (sD i) (wstore i) (rstore i)) c)
    (ha : (∀ i ≤ n, delim i = true ∧ again i = true) ∨ (c 0).sent.length ≤ 1)
    (hl : ∀ i ≤ n, (bytesOfAll (enc i) ((c 0).sent.map (translated f i))).length < 2 ^ 64)
    (hf : ∀ i ≤ n, ∀ x ∈ (c 0).sent, dom i (translated f i x) ∧ ∃ b, enc i (translated f i x) = .ok b)
    (hg : ∀ i ≤ n, (c i).got.length ≤ (c i).sent.length) (hc : ∀ i ≤ n, 0 < i → (c i).closed = false) :
    ∃ d, ChainSteps E D dom f n c d ∧ (d 0).sent = (c 0).sent ∧
      (d n).got = (c 0).sent.map (translated f n) := by
  have ha' : ∀ i ≤ n, delim i = true ∧ again i = true ∨ ((c 0).sent.map (translated f i)).length ≤ 1 := by
    intro i hi
    rcases ha with ha | ha
    · exact .inl (ha i hi)
    · exact .inr (by simpa using ha)
  -- a pipe can deliver what it was given
  have one : ∀ i ≤ n, ∀ p, PipeSteps (E i) (D i) (dom i) (.new (sE i) (sD i) (wstore i) (rstore i)) p →
      p.sent = (c 0).sent.map (translated f i) → p.got.length ≤ p.sent.length →
      ∃ q, PipeSteps (E i) (D i) (dom i) p q ∧ q.sent = p.sent ∧ q.got = p.sent ∧
        p.got = p.sent.take p.got.length := by
    intro i hi p hp hs hle
    have o := C51_in_order (hM i hi) (hS i hi) (hcap i hi) hp (by rw [hs]; exact hl i hi) (by rw [hs]; exact ha' i hi)
    rw [List.take_of_length_le hle] at o
    obtain ⟨q, k1, k2, k3⟩ := C51_delivers (hM i hi) (hS i hi) (hcap i hi) (hw i hi) (hr i hi) hp
      (by rw [hs]; exact hl i hi) (by rw [hs]; exact ha' i hi)
    refine ⟨q, k1, k2, ?_, o⟩
    rw [k3]
    conv => lhs; lhs; rw [o]
    exact List.take_append_drop _ _
  -- one pipe after the other
  have all : ∀ k ≤ n, ∃ d, ChainSteps E D dom f n c d ∧ (d 0).sent = (c 0).sent ∧
      (d k).sent = (c 0).sent.map (translated f k) ∧ (d k).got = (c k).got ∧ ∀ i, k < i → d i = c i := by
    intro k
    induction k with
    | zero => intro _; exact ⟨c, .refl, rfl, (List.map_id _).symm, rfl, fun _ _ => rfl⟩
    | succ k ih =>
      intro hk
      obtain ⟨d, d1, d2, d3, d4, d5⟩ := ih (by omega)
      obtain ⟨g1, g2⟩ := chain_pipes (chain_trans h d1) (fun _ _ => rfl)
      have hm := pipeSteps_sent ((chain_pipes d1 (chain_pipes h (fun _ _ => rfl)).2).1 k)
      have hle : (d k).got.length ≤ (d k).sent.length := by
        rw [d4]
        exact Nat.le_trans (hg k (by omega)) hm
      obtain ⟨p, k1, k2, k3, k4⟩ := one k (by omega) _ (g1 k) d3 hle
      have hcl : (d (k + 1)).closed = false := by
        rw [d5 _ (by omega)]
        exact hc _ hk (by omega)
      obtain ⟨q, m1, m2, m3, m4, m5⟩ := relay_up (f := f k) (matched_emits (hM (k + 1) hk)) (hS _ hk) (hcap _ hk)
        (hw _ hk) k1 (g1 (k + 1)) hcl (fun x hx => by
          rw [k3, d3] at hx
          obtain ⟨y, hy, rfl⟩ := List.mem_map.mp (List.mem_of_mem_drop hx)
          exact hf (k + 1) hk y hy)
      have step := chain_relay (c := d) (by omega : k < n) m1 rfl rfl (by rw [k2]; exact Nat.le_refl _)
        (by rw [m4]; exact Nat.le_refl _)
      refine ⟨_, chain_trans d1 step, ?_, ?_, ?_, ?_⟩
      · by_cases hk0 : k = 0
        · subst hk0
          rw [chainPut_other _ _ (by omega), chainPut_self]
          exact k2.trans d2
        · rw [chainPut_other _ _ (by omega), chainPut_other _ _ hk0]
          exact d2
      · rw [chainPut_self]
        simp only
        rw [m5, g2 k (by omega), ← List.map_append, k3]
        conv => lhs; rhs; lhs; rw [k4]
        rw [List.take_append_drop, d3, List.map_map]
        rfl
      · rw [chainPut_self]
        simp only
        rw [m4, d5 _ (by omega)]
      · intro i hi
        rw [chainPut_other _ _ (by omega), chainPut_other _ _ (by omega)]
        exact d5 i (by omega)
  obtain ⟨d, d1, d2, d3, d4, _⟩ := all n (Nat.le_refl n)
  obtain ⟨g1, _⟩ := chain_pipes (chain_trans h d1) (fun _ _ => rfl)
  have hm := pipeSteps_sent ((chain_pipes d1 (chain_pipes h (fun _ _ => rfl)).2).1 n)
  obtain ⟨p, k1, k2, k3, _⟩ := one n (Nat.le_refl n) _ (g1 n) d3 (by
    rw [d4]
    exact Nat.le_trans (hg n (Nat.le_refl n)) hm)
  refine ⟨_, chain_trans d1 (chain_last k1 (by rw [k2]; exact Nat.le_refl _)), ?_, ?_⟩
  · by_cases hn : n = 0
    · subst hn
      rw [chainPut_self]
      exact k2.trans d2
    · rw [chainPut_other _ _ hn]
      exact d2
  · rw [chainPut_self, k3, d3]

end

theorem one_matched : Matched true true true u8Encoder.toEncoder .new u8Decoder (fixInit 1) (fun _ => True)
    (fun x => .ok [x]) := by
  refine .number true _ _ 1 ?_
  rintro x bs h
  cases h
  exact ⟨rfl, rfl⟩

theorem two_matched : Matched true true true u16beEncoder.toEncoder .new u16beDecoder (fixInit 2) (fun _ => True)
    (fun x => .ok (writeBE 2 x.toNat)) := by
  refine .number true _ _ 2 ?_
  rintro x bs h
  cases h
  refine ⟨rfl, ?_⟩
  rw [readBE_eq, writeBE_eq, stored_layout, Nat.mod_eq_of_lt (show x.toNat < 256 ^ 2 from x.toNat_lt)]
  exact UInt16.ofNat_toNat

/-- Numbers of one byte are received and sent on with two bytes, all through buffers of one byte. The sender has handed
over 7, nothing has arrived yet (the empty list is the beginning of what was sent); it can arrive. -/
example : ∃ r t : Relay (BytesEncoderState Bytes) CopyableState UInt8 (BytesEncoderState Bytes) CopyableState UInt16,
    RelaySteps u8Encoder.toEncoder u8Decoder (fun _ => True) u16beEncoder.toEncoder u16beDecoder (fun _ => True)
      (fun n => n.toUInt16) ⟨.new .new (fixInit 1) [0] [0], .new .new (fixInit 2) [0] [0]⟩ r ∧ r.up.sent = [7] ∧
    r.down.got <+: [7] ∧
    RelaySteps u8Encoder.toEncoder u8Decoder (fun _ => True) u16beEncoder.toEncoder u16beDecoder (fun _ => True)
      (fun n => n.toUInt16) r t ∧ t.down.got = [7] := by
  have hS : SafeFrom u8Decoder (fixInit 1) := C05_safe (.number _ 1 trivial)
  have hS' : SafeFrom u16beDecoder (fixInit 2) := C05_safe (.number _ 2 trivial)
  have h0 : RelaySteps u8Encoder.toEncoder u8Decoder (fun _ => True) u16beEncoder.toEncoder u16beDecoder (fun _ => True)
      (fun n => n.toUInt16) ⟨.new .new (fixInit 1) [0] [0], .new .new (fixInit 2) [0] [0]⟩
      ⟨.new .new (fixInit 1) [0] [0], .new .new (fixInit 2) [0] [0]⟩ := .refl
  have h1 := RelaySteps.step h0 (.up (.start 7 rfl rfl trivial rfl) rfl)
  have h2 := RelaySteps.step h1 (.up (.encode rfl) rfl)
  have hp := C103_prefix one_matched hS two_matched hS' (by decide) (by decide) (y := 1) trivial rfl (by simp) (z := 1)
    trivial rfl (by decide) h2 (by decide) (by decide) rfl rfl
  obtain ⟨t, k1, _, _, k4⟩ := C103_delivers one_matched hS two_matched hS' (by decide) (by decide) (by decide) (by decide)
    (by decide) (by decide) h2 (by decide) (.inl ⟨rfl, rfl⟩) (by decide) (.inl ⟨rfl, rfl⟩)
    (fun x _ => ⟨trivial, _, rfl⟩) (by decide) rfl
  exact ⟨_, t, h2, rfl, hp, k1, k4⟩

/-- Numbers of one byte through three relays, each of which adds 1. The sender has handed over 7; it can arrive as 10. -/
example : ∃ c d : Chain (fun _ => BytesEncoderState Bytes) (fun _ => CopyableState) (fun _ => UInt8),
    ChainSteps (fun _ => u8Encoder.toEncoder) (fun _ => u8Decoder) (fun _ _ => True) (fun _ x => x + 1) 3
      (fun _ => .new .new (fixInit 1) [0] [0]) c ∧ (c 0).sent = [7] ∧ (c 3).got <+: [10] ∧
    ChainSteps (fun _ => u8Encoder.toEncoder) (fun _ => u8Decoder) (fun _ _ => True) (fun _ x => x + 1) 3 c d ∧
      (d 3).got = [10] := by
  have hS : SafeFrom u8Decoder (fixInit 1) := C05_safe (.number _ 1 trivial)
  have h1 : ChainSteps (τ := fun _ => BytesEncoderState Bytes) (σ := fun _ => CopyableState) (α := fun _ => UInt8)
      (fun _ => u8Encoder.toEncoder) (fun _ => u8Decoder) (fun _ _ => True) (fun _ x => x + 1) 3
      (fun _ => .new .new (fixInit 1) [0] [0]) _ :=
    .step .refl (.within 0 (by decide) (.start 7 rfl rfl trivial rfl) (by decide) (fun _ => rfl))
  obtain ⟨d, k1, _, k3⟩ := C103_chain_delivers (fun _ _ => one_matched) (fun _ _ => hS) (by simp) (by simp) (by simp) h1
    (.inl fun _ _ => ⟨rfl, rfl⟩) (by
      intro i _
      simp [chainPut_self, bytesOfAll, bytesOf, Pipe.new])
    (fun _ _ _ _ => ⟨trivial, _, rfl⟩)
    (by
      intro i hi
      by_cases h : 0 = i
      · subst h; decide
      · rw [chainPut_other _ _ h]; simp [Pipe.new, bytesOfAll])
    (by
      intro i hi h
      rw [chainPut_other _ _ (by omega)]
      rfl)
  have hp := C103_chain_prefix (fun _ _ => one_matched) (fun _ _ => hS) (by simp)
    (fun _ _ => ⟨1, [1], trivial, rfl, by simp⟩) h1
    (by
      intro i hi
      by_cases h : 0 = i
      · subst h; decide
      · rw [chainPut_other _ _ h]; simp [Pipe.new, bytesOfAll])
    (by
      intro i hi
      by_cases h : 0 = i
      · subst h; rfl
      · rw [chainPut_other _ _ h]; rfl)
  exact ⟨_, d, h1, rfl, hp, k1, k3⟩

end Bytecodec.Props
