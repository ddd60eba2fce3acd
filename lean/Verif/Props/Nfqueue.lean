import Verif.Proof.Nfqueue

/-! C54: verdict and mark. -/

set_option autoImplicit false

namespace Nfqlb.Props

open Nfqlb Nfqlb.Nfq Nfqlb.Spec.Nfq

/-- **C54.** For each handler and each sequence of packets the kernel queues: each packet gets exactly one verdict, in order, for its number and its queue. A packet for which the handler returned a negative value is
dropped; else it is accepted with exactly that value as mark. -/
theorem C54_verdicts {σ : Type} (handle : Handler σ) (st st' : σ) (ms : List Msg) (ps : List Queued) (rs : List Int)
    (hc : AllCarried ms ps) (hh : Handles handle st ps rs st') :
    ∃ vs, run handle st ms = (vs, .ok st') ∧ AllAnswered vs ps rs :=
  run_answers handle ms ps hc st st' rs hh

/-- **C54.** No message leads to more than one verdict, whatever the messages are; and if the program goes on, each has led to one. -/
theorem C54_counts {σ : Type} (handle : Handler σ) (st : σ) (ms : List Msg) :
    (run handle st ms).1.length ≤ ms.length ∧
    ∀ st', (run handle st ms).2 = .ok st' → (run handle st ms).1.length = ms.length :=
  ⟨run_at_most handle ms st, fun st' h => run_count handle ms st st' _ (Prod.ext rfl h)⟩

/-- **C54.** A message that cannot be parsed, or has no packet header, gets no verdict and ends the program. -/
theorem C54_bad_message {σ : Type} (handle : Handler σ) (st : σ) (m : Msg) (ms : List Msg) (h : m.parses = false ∨ m.hdr = none) :
    run handle st (m :: ms) = ([], .die) := by
  have : queueCb handle st m = .ok (-1, st, []) := by
    unfold queueCb
    by_cases hp : m.parses = false
    · rw [if_pos hp]
    · rw [if_neg hp, h.resolve_left hp]
  simp only [run]
  rw [this]
  rfl

/-- **C54**, outside of it: for a message without data the program reads through a null pointer (/repo/src/lib/nfqueue.c:96). -/
theorem C54_no_payload {σ : Type} (handle : Handler σ) (st : σ) (m : Msg) (ms : List Msg) (hp : m.parses = true) (hh : m.hdr ≠ none) (hd : m.payload = none) :
    run handle st (m :: ms) = ([], .ub) := by
  have : queueCb handle st m = .ub := by
    unfold queueCb
    rw [if_neg (by simp [hp])]
    cases hm : m.hdr with
    | none => exact absurd hm hh
    | some p => rw [hd]
  simp only [run]
  rw [this]

/-- A handler that drops packets of one byte, and marks others with their number so far. -/
def exHandler : Handler Nat := fun st _ _ len => if len = 1 then .ok (st + 1, -1) else .ok (st + 1, st + 5)

/-- Two messages: packet 258 of queue 2, and packet 66051. -/
def exMsgs : List Msg :=
  [⟨(0, 2), true, some ⟨(0, 0, 1, 2), (8, 0)⟩, some [69]⟩, ⟨(0, 2), true, some ⟨(0, 1, 2, 3), (0x86, 0xdd)⟩, some [96, 0]⟩]

def exPkts : List Queued := [⟨2, 258, 2048, [69]⟩, ⟨2, 66051, 34525, [96, 0]⟩]

example : AllCarried exMsgs exPkts ∧ Handles exHandler 0 exPkts [-1, 6] 2 :=
  ⟨.cons ⟨rfl, by decide, rfl, by decide, _, rfl, by decide, by decide⟩ (.cons ⟨rfl, by decide, rfl, by decide, _, rfl, by decide, by decide⟩ .nil),
   .cons rfl (by decide) (by decide) (.cons rfl (by decide) (by decide) (.nil _))⟩

example : run exHandler 0 exMsgs = ([⟨2, 258, 0, 0⟩, ⟨2, 66051, 6, 1⟩], .ok 2) := by decide

example : ({ resId := (0, 2), parses := true, hdr := none, payload := some [69] } : Msg).hdr = none := rfl

example : run exHandler 0 [⟨(0, 2), true, some ⟨(0, 0, 1, 2), (8, 0)⟩, none⟩] = ([], .ub) :=
  C54_no_payload exHandler 0 _ [] rfl (by decide) rfl

end Nfqlb.Props
