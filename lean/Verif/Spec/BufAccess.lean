import Verif.Spec.Io
import Verif.Model.BufAccess
/-!
# Specification: buffers whose storage and state the caller changes
-/
namespace Bytecodec.Spec

variable {ρ ω : Type}

/-- Any number of calls on a read buffer, between which the caller sets the stream state and changes the storage in
any way that does not cut off bytes in use (the first `capacity - room` ones); with `keep = true`, without
altering those. -/
inductive ReadAccess (keep : Bool) (R : Reader ρ) (inner : Bytes) (r : ρ) : ReadSys ρ → Prop
  | new : ReadAccess keep R inner r ⟨.new inner, (r, []), []⟩
  | step {s t : ReadSys ρ} : ReadAccess keep R inner r s → ReadStep R s t → ReadAccess keep R inner r t
  | state {s : ReadSys ρ} (st : StreamState) : ReadAccess keep R inner r s →
      ReadAccess keep R inner r { s with buf := s.buf.setState st }
  | storage {s : ReadSys ρ} (new : Bytes) : ReadAccess keep R inner r s →
      s.buf.capacity - s.buf.room ≤ new.length →
      (keep = true → new.take (s.buf.capacity - s.buf.room) = s.buf.inner.take (s.buf.capacity - s.buf.room)) →
      ReadAccess keep R inner r { s with buf := s.buf.setInner new }

/-- The same for a write buffer. -/
inductive WriteAccess (keep : Bool) (W : Writer ω) (inner : Bytes) (w : ω) : WriteSys ω → Prop
  | new : WriteAccess keep W inner w ⟨.new inner, (w, []), []⟩
  | step {s t : WriteSys ω} : WriteAccess keep W inner w s → WriteStep W s t → WriteAccess keep W inner w t
  | state {s : WriteSys ω} (st : StreamState) : WriteAccess keep W inner w s →
      WriteAccess keep W inner w { s with buf := s.buf.setState st }
  | storage {s : WriteSys ω} (new : Bytes) : WriteAccess keep W inner w s →
      s.buf.capacity - s.buf.room ≤ new.length →
      (keep = true → new.take (s.buf.capacity - s.buf.room) = s.buf.inner.take (s.buf.capacity - s.buf.room)) →
      WriteAccess keep W inner w { s with buf := s.buf.setInner new }

end Bytecodec.Spec
