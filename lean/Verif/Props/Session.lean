import Verif.Lemmas.SessionRun
import Verif.Props.Decoding
/-!
# C84: a client and a server over one connection
-/
namespace Bytecodec.Props

open Bytecodec Bytecodec.Spec

variable {τ σ τ' σ' α β : Type} {strict strict' : Bool} {E : Encoder τ α} {sE : τ} {D : Decoder σ α} {sD : σ}
  {dom : α → Prop} {enc : α → Except ErrorKind Bytes} {E' : Encoder τ' β} {sE' : τ'} {D' : Decoder σ' β} {sD' : σ'}
  {dom' : β → Prop} {enc' : β → Except ErrorKind Bytes} {answer : α → β} {cap : Nat} {reqs : List α}
  {store₁ store₂ store₃ store₄ : Bytes}

/-- C84: whoever has the turns and however the bytes are cut: no call fails on either side; the server has taken the
first requests, in order; the client has the answers to the first requests, in order, and to none the server has
not taken. -/
theorem C84_in_order (hM : Matched strict true true E sE D sD dom enc)
    (hM' : Matched strict' true true E' sE' D' sD' dom' enc') (hS : SafeFrom D sD) (hS' : SafeFrom D' sD')
    (h₁ : store₁ ≠ []) (h₂ : store₂ ≠ []) (h₃ : store₃ ≠ []) (h₄ : store₄ ≠ [])
    (hn₂ : store₂.length < 2 ^ 64) (hn₃ : store₃.length < 2 ^ 64)
    (hm : ∀ x ∈ reqs, dom x ∧ ∃ b, enc x = .ok b)
    (ha : ∀ x ∈ reqs, dom' (answer x) ∧ ∃ b, enc' (answer x) = .ok b)
    (hz : ∃ z b, dom z ∧ enc z = .ok b ∧ b ≠ []) (hz' : ∃ z b, dom' z ∧ enc' z = .ok b ∧ b ≠ [])
    (sizes : Nat → Nat) (schedule : List Side) :
    let t := (Session.new sE sD sE' sD' store₁ store₂ store₃ store₄ sizes reqs).run E D E' D' answer cap schedule
    t.failed = false ∧ t.handled <+: reqs ∧ t.got <+: t.handled.map answer := by
  have hl : ∀ {s : Bytes}, s ≠ [] → 0 < s.length := List.length_pos_iff.2
  have S : Setting strict strict' E sE D sD dom enc E' sE' D' sD' dom' enc' answer store₁.length store₂.length
    store₃.length store₄.length reqs := ⟨hM, hM', hS, hS', hl h₁, hl h₂, hl h₃, hl h₄, hn₂, hn₃, hm, ha, hz, hz'⟩
  obtain ⟨c, d, h0⟩ := at_new S rfl rfl rfl rfl sizes
  obtain ⟨_, _, ⟨sent, _, _, _, _, hI, _⟩, _⟩ := run_at (cap := cap) S schedule h0
  exact ⟨hI.ok, hI.got₁.trans ⟨_, hI.split.symm⟩, hI.got₂⟩

/-- C84: they never block each other for good. If the schedule consists of blocks in which each side has at least
one turn, and there are enough of them, the client has all the answers. `C84_in_order` holds as well. The bound
counts each byte four times and each message four times. -/
theorem C84_all_answered (hM : Matched strict true true E sE D sD dom enc)
    (hM' : Matched strict' true true E' sE' D' sD' dom' enc') (hS : SafeFrom D sD) (hS' : SafeFrom D' sD')
    (h₁ : store₁ ≠ []) (h₂ : store₂ ≠ []) (h₃ : store₃ ≠ []) (h₄ : store₄ ≠ []) (hcap : 0 < cap)
    (hn₂ : store₂.length < 2 ^ 64) (hn₃ : store₃.length < 2 ^ 64)
    (hm : ∀ x ∈ reqs, dom x ∧ ∃ b, enc x = .ok b)
    (ha : ∀ x ∈ reqs, dom' (answer x) ∧ ∃ b, enc' (answer x) = .ok b)
    (hz : ∃ z b, dom z ∧ enc z = .ok b ∧ b ≠ []) (hz' : ∃ z b, dom' z ∧ enc' z = .ok b ∧ b ≠ [])
    (sizes : Nat → Nat) (blocks : List (List Side)) (hb : ∀ l ∈ blocks, Side.client ∈ l ∧ Side.server ∈ l)
    (hlen : 4 * ((bytesOfAll enc reqs).length + (bytesOfAll enc' (reqs.map answer)).length + reqs.length) ≤
      blocks.length) :
    ((Session.new sE sD sE' sD' store₁ store₂ store₃ store₄ sizes reqs).run E D E' D' answer cap blocks.flatten).got =
      reqs.map answer := by
  have hl : ∀ {s : Bytes}, s ≠ [] → 0 < s.length := List.length_pos_iff.2
  have S : Setting strict strict' E sE D sD dom enc E' sE' D' sD' dom' enc' answer store₁.length store₂.length
    store₃.length store₄.length reqs := ⟨hM, hM', hS, hS', hl h₁, hl h₂, hl h₃, hl h₄, hn₂, hn₃, hm, ha, hz, hz'⟩
  obtain ⟨c, d, h0⟩ := at_new S rfl rfl rfl rfl sizes
  obtain ⟨c', d', ⟨sent, pos₁, em₁, pos₂, em₂, hI, rfl, rfl⟩, _, hdone⟩ := blocks_at (cap := cap) S hcap blocks hb h0
  generalize (Session.new sE sD sE' sD' store₁ store₂ store₃ store₄ sizes reqs).run E D E' D' answer cap
    blocks.flatten = t at hI hdone
  have hbound := hI.bounds (matched_emits hM) (matched_emits hM')
  have hgot : reqs.length ≤ t.got.length := by
    rcases hdone with hd | hd
    · simp only [cnt₂, cnt] at hd
      omega
    · omega
  have h1 := hI.got₂.length_le
  have h2 := hI.got₁.length_le
  have h3 := congrArg List.length hI.split
  simp only [List.length_append, List.length_map] at h1 h3
  have hh : t.handled = reqs := (hI.got₁.trans ⟨_, hI.split.symm⟩).eq_of_length (by omega)
  rw [hI.got₂.eq_of_length (by simp only [List.length_map]; omega), hh]

/-- Requests and answers of two bytes, all buffers and the connection of one byte, any splitting. Here the turns
alternate. -/
example (sizes : Nat → Nat) (reqs : List Bytes) (hr : ∀ x ∈ reqs, x.length = 2) :
    ((Session.new .new (.new [0, 0]) .new (.new [0, 0]) [0] [0] [0] [0] sizes reqs).run
      (bytesEncoder (id : Bytes → Bytes)).toEncoder copyableBytesDecoder
      (bytesEncoder (id : Bytes → Bytes)).toEncoder copyableBytesDecoder List.reverse 1
      (List.replicate (4 * ((bytesOfAll (fun x => .ok x) reqs).length +
        (bytesOfAll (fun x => .ok x) (reqs.map List.reverse)).length + reqs.length)) [Side.client, .server]).flatten).got =
      reqs.map List.reverse := by
  refine C84_all_answered (Matched.copyable true [0, 0]) (Matched.copyable true [0, 0])
    (C05_safe (.copyable _ trivial)) (C05_safe (.copyable _ trivial))
    (by decide) (by decide) (by decide) (by decide) (by decide) (by decide) (by decide)
    (fun x hx => ⟨hr x hx, _, rfl⟩) (fun x hx => ⟨by simpa using hr x hx, _, rfl⟩)
    ⟨[1, 1], [1, 1], rfl, rfl, by decide⟩ ⟨[1, 1], [1, 1], rfl, rfl, by decide⟩ sizes _ ?_ ?_
  · intro l hl
    rw [List.eq_of_mem_replicate hl]
    decide
  · simp

end Bytecodec.Props
