import Verif.LastIp
import Verif.Spec.Packet

/-!
# IP reconstruction (C12)
-/

namespace Ipt.Spec

/-- A 64-bit value whose bits 63..47 are all equal. -/
def Canonical48 (ip : Nat) : Prop := ip < 2 ^ 47 ∨ (2 ^ 64 - 2 ^ 47 ≤ ip ∧ ip < 2 ^ 64)

/-- The processor may send the address `ip`, when it last sent `last`, with the compression
`ipc` and the given payload (Intel SDM, vol. 3C, "IP Compression"). -/
def Compresses (last ip ipc payload : Nat) : Prop :=
  (ipc = 1 ∧ payload = ip % 2 ^ 16 ∧ ip / 2 ^ 16 = last / 2 ^ 16) ∨
  (ipc = 2 ∧ payload = ip % 2 ^ 32 ∧ ip / 2 ^ 32 = last / 2 ^ 32) ∨
  (ipc = 4 ∧ payload = ip % 2 ^ 48 ∧ ip / 2 ^ 48 = last / 2 ^ 48) ∨
  (ipc = 3 ∧ payload = ip % 2 ^ 48 ∧ Canonical48 ip) ∨
  (ipc = 6 ∧ payload = ip)

/-- One IP packet as the processor sends it: either suppressed, or an address. -/
inductive IpSent
  | suppressed
  | addr (ip ipc payload : Nat)

/-- The processor sends the list of IPs, starting with `last` as its last IP. -/
inductive Sends : Nat → List IpSent → Prop
  | nil (last : Nat) : Sends last []
  | suppressed {last : Nat} {l : List IpSent} (t : Sends last l) : Sends last (.suppressed :: l)
  | addr {last ip ipc payload : Nat} {l : List IpSent} (hip : ip < 2 ^ 64)
      (h : Compresses last ip ipc payload) (t : Sends ip l) : Sends last (.addr ip ipc payload :: l)

end Ipt.Spec

namespace Ipt.Props

open Ipt Spec

/-- C12, the effect of each compression mode: suppressed hides the IP and keeps the base; the
update modes replace the low 16, 32 or 48 bits and keep the others; 48-bit sign-extended and
full replace the whole IP; other modes are refused and change nothing. -/
theorem C12_update_effect (l : LastIp) (ip : Nat) :
    (l.update 0 ip = ({ l with suppressed := true }, .ok ())) ∧
    (∀ ipc w, (ipc, w) ∈ [(1, 16), (2, 32), (4, 48)] →
      ∃ l', l.update ipc ip = (l', .ok ()) ∧ l'.query = .ok l'.ip ∧
        l'.ip % 2 ^ w = ip % 2 ^ w ∧ l'.ip / 2 ^ w = l.ip / 2 ^ w) ∧
    (∃ l', l.update 3 ip = (l', .ok ()) ∧ l'.query = .ok l'.ip ∧
        l'.ip % 2 ^ 48 = ip % 2 ^ 48 ∧ Canonical48 l'.ip) ∧
    (∃ l', l.update 6 ip = (l', .ok ()) ∧ l'.query = .ok ip) ∧
    (∀ ipc, ipc ∉ [0, 1, 2, 3, 4, 6] → l.update ipc ip = (l, .err .badPacket)) := by
  refine ⟨rfl, ?_, ?_, ⟨_, rfl, by simp [LastIp.query]⟩, ?_⟩
  · intro ipc w h
    simp only [List.mem_cons, Prod.mk.injEq, List.not_mem_nil, or_false] at h
    rcases h with ⟨rfl, rfl⟩ | ⟨rfl, rfl⟩ | ⟨rfl, rfl⟩ <;>
      refine ⟨_, rfl, by simp [LastIp.query], ?_, ?_⟩ <;> dsimp only <;> omega
  · refine ⟨_, rfl, by simp [LastIp.query], ?_, ?_⟩
    · dsimp only [sext]
      by_cases h : ip / 2 ^ (48 - 1) % 2 = 1
      · rw [if_pos h]; omega
      · rw [if_neg h]; omega
    · dsimp only [sext, Canonical48]
      by_cases h : ip / 2 ^ (48 - 1) % 2 = 1
      · rw [if_pos h]; omega
      · rw [if_neg h]; omega
  · intro ipc h
    simp only [List.mem_cons, List.not_mem_nil, or_false, not_or] at h
    simp [LastIp.update, h]

/-- C12, inverse: whatever the last IP is, and whichever legal compression of the new IP the
processor chose, the update restores the new IP exactly. -/
theorem C12_decompress_inverse (l : LastIp) (ip ipc payload : Nat) (hip : ip < 2 ^ 64)
    (h : Compresses l.ip ip ipc payload) :
    ∃ l', l.update ipc payload = (l', .ok ()) ∧ l'.ip = ip ∧ l'.query = .ok ip := by
  rcases h with ⟨rfl, rfl, h⟩ | ⟨rfl, rfl, h⟩ | ⟨rfl, rfl, h⟩ | ⟨rfl, rfl, h⟩ | ⟨rfl, rfl⟩
  · have e : l.ip / 2 ^ 16 * 2 ^ 16 + ip % 2 ^ 16 % 2 ^ 16 = ip := by omega
    refine ⟨_, rfl, e, ?_⟩
    simp only [LastIp.query]
    simp
    omega
  · have e : l.ip / 2 ^ 32 * 2 ^ 32 + ip % 2 ^ 32 % 2 ^ 32 = ip := by omega
    refine ⟨_, rfl, e, ?_⟩
    simp only [LastIp.query]
    simp
    omega
  · have e : l.ip / 2 ^ 48 * 2 ^ 48 + ip % 2 ^ 48 % 2 ^ 48 = ip := by omega
    refine ⟨_, rfl, e, ?_⟩
    simp only [LastIp.query]
    simp
    omega
  · have e : sext (ip % 2 ^ 48) 48 = ip := by
      unfold Canonical48 at h
      unfold sext
      by_cases h' : ip % 2 ^ 48 / 2 ^ (48 - 1) % 2 = 1
      · rw [if_pos h']; omega
      · rw [if_neg h']; omega
    refine ⟨_, rfl, e, ?_⟩
    simp [LastIp.query, e]
  · exact ⟨_, rfl, rfl, by simp [LastIp.query]⟩

/-- What the decoder reports after each IP packet. -/
def receive (l : LastIp) : List IpSent → List (Res Nat)
  | [] => []
  | .suppressed :: t => (l.update 0 0).1.query :: receive (l.update 0 0).1 t
  | .addr _ ipc payload :: t => (l.update ipc payload).1.query :: receive (l.update ipc payload).1 t

/-- What the processor meant: the address, or "suppressed". -/
def meant : List IpSent → List (Res Nat)
  | [] => []
  | .suppressed :: t => .err .ipSuppressed :: meant t
  | .addr ip _ _ :: t => .ok ip :: meant t

/-- C12 for whole histories: for every sequence of IP packets the processor may send, the
decoder reports exactly the addresses the processor meant, and reports the suppressed ones as
suppressed. -/
theorem C12_ip_history (l : LastIp) (hl : l.haveIp = true) (s : List IpSent) (h : Sends l.ip s) :
    receive l s = meant s := by
  generalize hlast : l.ip = last at h
  induction h generalizing l with
  | nil => rfl
  | suppressed t ih =>
    have e : (l.update 0 0).1 = { l with suppressed := true } := rfl
    simp only [receive, meant, e]
    rw [ih { l with suppressed := true } hl hlast]
    simp [LastIp.query, hl]
  | addr hip hc t ih =>
    rename_i last ip ipc payload l0
    rw [← hlast] at hc
    obtain ⟨l', h1, h2, h3⟩ := C12_decompress_inverse l ip ipc payload hip hc
    simp only [receive, meant, h1, h3]
    rw [ih l' ?_ h2]
    unfold LastIp.query at h3
    split at h3
    · cases h3
    · simpa using ‹¬ l'.haveIp = false›

/-- Not vacuous: a far address sent in full, then two compressed ones and a suppressed one. -/
example : Sends 0 [.addr 0xffffffff81000000 3 0xffff81000000, .addr 0xffffffff81001234 1 0x1234,
    .suppressed, .addr 0xffffffff00005678 2 0x5678] ∧
    receive { haveIp := true } [.addr 0xffffffff81000000 3 0xffff81000000, .addr 0xffffffff81001234 1 0x1234,
    .suppressed, .addr 0xffffffff00005678 2 0x5678] =
      [.ok 0xffffffff81000000, .ok 0xffffffff81001234, .err .ipSuppressed, .ok 0xffffffff00005678] := by
  refine ⟨?_, by decide +kernel⟩
  refine .addr (by omega) (.inr (.inr (.inr (.inl ⟨rfl, rfl, .inr ⟨by omega, by omega⟩⟩)))) ?_
  refine .addr (by omega) (.inl ⟨rfl, rfl, rfl⟩) (.suppressed ?_)
  exact .addr (by omega) (.inr (.inl ⟨rfl, rfl, rfl⟩)) (.nil _)

end Ipt.Props
