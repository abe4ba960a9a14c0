import Verif.Spec.Deploy
/-
Transfers, as a user thinks of them, and when two transactions are the same to someone who reads their lines.  Independent of the model.
-/
namespace Casper

/-- Prices that look the same. -/
def Pricing.Alike : Pricing → Pricing → Prop
  | .limited amount gas _, .limited amount' gas' _ => amount = amount' ∧ gas = gas'
  | .fixed gas _, .fixed gas' _ => gas = gas'
  | .prepaid r, .prepaid r' => r = r'
  | _, _ => False

/-- The headers of two Deploys agree in everything that is shown of them: in normal mode account and chain, in expert mode also the gas price, the number of
dependencies, the time to live in seconds and the time as formatted. -/
structure DeploySpec.HeadAlike (fmt : Nat → Option Bytes) (expert : Bool) (x y : DeploySpec) : Prop where
  account : x.account = y.account
  chain : x.chain = y.chain
  gas : expert = true → x.gasPrice = y.gasPrice
  deps : expert = true → x.deps.length = y.deps.length
  ttl : expert = true → x.ttl / 1000 = y.ttl / 1000
  time : expert = true → fmt (x.timestamp / 1000) = fmt (y.timestamp / 1000)

/-- The same for version 1. -/
structure TxPayload.HeadAlike (fmt : Nat → Option Bytes) (expert : Bool) (p q : TxPayload) : Prop where
  initiator : p.initiator = q.initiator
  chain : p.chain = q.chain
  entry : p.entry = q.entry
  pricing : expert = true → p.pricing.Alike q.pricing
  ttl : expert = true → p.ttl / 1000 = q.ttl / 1000
  time : expert = true → fmt (p.timestamp / 1000) = fmt (q.timestamp / 1000)

end Casper
