import Verif.Model.TripleFile

/-!
Model of the streaming readers of stored triples: `BaseTripleStream`
(src/layer/internal/base.rs:404-490) and `ChildTripleStream`
(src/layer/internal/child.rs:561-705).
-/

namespace Verif

/-- `BaseTripleStream::poll_next` (src/layer/internal/base.rs:422-475) polled until the
end or the first error. The arguments are `last_s_p`, `last_sp`, the rest of the s_p
stream and the rest of the sp_o stream; `none` is the error at lines 436-439. Pending
polls are left out. -/
def baseStreamLoop : Nat × Nat → Nat → List (Nat × Nat) → List (Nat × Nat) →
    Option (List Triple)
  | _, _, _, [] => some []
  | last, lastSp, sps, (sp, o) :: rest =>
    if sp > lastSp then
      match sps with
      | [] => none
      | (s, p) :: sps => (baseStreamLoop (s, p) sp sps rest).map (⟨s, p, o⟩ :: ·)
    else (baseStreamLoop last lastSp sps rest).map (⟨last.1, last.2, o⟩ :: ·)

/-- `open_base_triple_stream` (src/layer/internal/base.rs:478-490) read to the end. -/
def baseTripleStream (sp spo : AdjList) : Option (List Triple) :=
  baseStreamLoop (0, 0) 0 (streamPairs sp) (streamPairs spo)

/-- `ChildTripleStream::poll_next` (src/layer/internal/child.rs:597-682) polled until the
end or the first error. The arguments are `last_mapped_s`, `last_s_p`, `last_sp` and
the rests of the subjects, s_p and sp_o streams; `none` is one of the errors at lines
611-614 and 622-625. -/
def childStreamLoop : Nat → Nat × Nat → Nat → List Nat → List (Nat × Nat) → List (Nat × Nat) →
    Option (List Triple)
  | _, _, _, _, _, [] => some []
  | mapped, last, lastSp, subs, sps, (sp, o) :: rest =>
    if sp > lastSp then
      match sps with
      | [] => none
      | (s, p) :: sps =>
        if s > last.1 then
          match subs with
          | [] => none
          | m :: subs => (childStreamLoop m (s, p) sp subs sps rest).map (⟨m, p, o⟩ :: ·)
        else (childStreamLoop mapped (s, p) sp subs sps rest).map (⟨mapped, p, o⟩ :: ·)
    else (childStreamLoop mapped last lastSp subs sps rest).map (⟨mapped, last.2, o⟩ :: ·)

/-- `open_child_triple_stream` (src/layer/internal/child.rs:684-705) read to the end. -/
def childTripleStream (subjects : List Nat) (sp spo : AdjList) : Option (List Triple) :=
  childStreamLoop 0 (0, 0) 0 subjects (streamPairs sp) (streamPairs spo)

end Verif
