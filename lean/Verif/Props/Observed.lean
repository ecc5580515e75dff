import Verif.Props.Live
import Verif.Props.Swap2
/-! # C100: a source given as a list of one text -/
namespace TF.Props
open TF TF.Spec

theorem fund_one_text (H : Bytes → Bytes) (w : Wallets) (a : Currency) (s : Str) (x : List CoinInput × Currency × Option Condition) :
    w.fund H a (.list [.str s]) ≠ .ok x := by
  intro h
  obtain ⟨y, hy, _⟩ := bind_ok h
  unfold Wallets.sources at hy
  obtain ⟨us, _, hy⟩ := bind_ok hy
  obtain ⟨pm, _, hy⟩ := bind_ok hy
  cases hy

theorem payment_one_text {W : World} {w : Wallets} {outs : List CoinOutput} {sum : Currency} {s : Str} {refund : Recipient} {data : DataArg} {t : Tx} :
    W.payment w outs sum (.list [.str s]) refund data ≠ .ok t := by
  intro h
  obtain ⟨need, _, h⟩ := bind_ok h
  obtain ⟨x, hx, _⟩ := bind_ok h
  exact fund_one_text _ _ _ _ _ hx

theorem extra_one_text {W : World} {w : Wallets} {a : Currency} {s : Str} {refund : Recipient} {x : List CoinInput × Option CoinOutput × Currency} :
    W.fundExtra w a (.list [.str s]) refund ≠ .ok x := by
  intro h
  obtain ⟨need, _, h⟩ := bind_ok h
  obtain ⟨x, hx, _⟩ := bind_ok h
  exact fund_one_text _ _ _ _ _ hx

/-- **C100** (false of the code) A source given as a list of one text, such as `source=[address]`, is never usable: whatever the wallet has and
whatever is asked for, `coins_send`, the transaction builder, `erc20.coins_send`, the 3Bot operations and `address_register` come to no
transaction. (The same address as such, as an object in a list, or next to a second one is fine: see the example.) -/
theorem C100_one_text_false (W : World) (s : Str) (t : Tx) :
    (∀ r amt refund lock data, ¬ Produces (W.coinsSend r amt (.list [.str s]) refund lock data) t) ∧
    (∀ outs refund data, ¬ Produces (W.builderSend (some outs) (.list [.str s]) refund data).2 t) ∧
    (∀ addr amt refund, ¬ Produces (W.erc20Send addr amt (.list [.str s]) refund) t) ∧
    (∀ L months names addrs key refund, ¬ Produces (W.recordNew L months names addrs key (.list [.str s]) refund) t) ∧
    (∀ L id months na nr aa ar refund, ¬ Produces (W.recordUpdate L id months na nr aa ar (.list [.str s]) refund) t) ∧
    (∀ sender receiver names refund, ¬ Produces (W.nameTransfer sender receiver names (.list [.str s]) refund) t) ∧
    (∀ which refund, ¬ Produces (W.addressRegister which (.list [.str s]) refund) t) := by
  have erc : ∀ addr amt refund, ¬ Produces (W.erc20Send addr amt (.list [.str s]) refund) t := by
    intro addr amt refund h
    obtain ⟨w, _, h⟩ := ofRes_produces h
    obtain ⟨tx, h1, _⟩ := ofRes_produces h
    obtain ⟨a, _, h1⟩ := bind_ok h1
    obtain ⟨ad, _, h1⟩ := bind_ok h1
    obtain ⟨x, hx, _⟩ := bind_ok h1
    exact extra_one_text hx
  refine ⟨?_, ?_, erc, ?_, ?_, ?_, ?_⟩
  · intro r amt refund lock data h
    unfold World.coinsSend at h
    split at h
    · split at h
      · exact erc _ _ _ h
      · rcases h with h | ⟨b, h⟩
        · simp at h
        · cases h
    · obtain ⟨w, _, h⟩ := ofRes_produces h
      obtain ⟨tx, h1, _⟩ := ofRes_produces h
      obtain ⟨a, _, h1⟩ := bind_ok h1
      obtain ⟨c, _, h1⟩ := bind_ok h1
      exact payment_one_text h1
  · intro outs refund data h
    obtain ⟨w, _, h⟩ := ofRes_produces h
    obtain ⟨tx, h1, _⟩ := ofRes_produces h
    obtain ⟨a, _, h1⟩ := bind_ok h1
    exact payment_one_text h1
  · intro L months names addrs key refund h
    obtain ⟨_, _, h⟩ := ofRes_produces h
    obtain ⟨_, _, h⟩ := ofRes_produces h
    obtain ⟨_, _, h⟩ := ofRes_produces h
    obtain ⟨_, hx, _⟩ := ofRes_produces h
    exact extra_one_text hx
  · intro L id months na nr aa ar refund h
    obtain ⟨_, _, h⟩ := ofRes_produces h
    obtain ⟨_, _, h⟩ := ofRes_produces h
    obtain ⟨_, _, h⟩ := ofRes_produces h
    obtain ⟨_, _, h⟩ := ofRes_produces h
    obtain ⟨_, hx, _⟩ := ofRes_produces h
    exact extra_one_text hx
  · intro sender receiver names refund h
    obtain ⟨_, _, h⟩ := ofRes_produces h
    obtain ⟨_, _, h⟩ := ofRes_produces h
    obtain ⟨_, _, h⟩ := ofRes_produces h
    obtain ⟨_, hx, _⟩ := ofRes_produces h
    exact extra_one_text hx
  · intro which refund h
    obtain ⟨_, _, h⟩ := ofRes_produces h
    obtain ⟨_, _, h⟩ := ofRes_produces h
    obtain ⟨_, hx, _⟩ := ofRes_produces h
    exact extra_one_text hx

-- 6 TFT from the address of the first key: as text it works, in a list it does not, as an object in a list it does
example : (wal1.fund toyHash ⟨some ⟨false, 2, 0⟩⟩ (.one (.str ((addrOf key1).str toyHash)))).toOption.isSome = true ∧
    (wal1.fund toyHash ⟨some ⟨false, 2, 0⟩⟩ (.list [.str ((addrOf key1).str toyHash)])).toOption.isSome = false ∧
    (wal1.fund toyHash ⟨some ⟨false, 2, 0⟩⟩ (.list [.uh (addrOf key1)])).toOption.isSome = true := by decide +kernel

end TF.Props
