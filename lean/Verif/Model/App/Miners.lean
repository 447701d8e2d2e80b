import Verif.Model.App.Miner
import Verif.Model.Store.Services

/-!
# Model of `application/miners/current.go`

Times read from the clock, the number of available stack frames and the machine are parameters. Every retrieval is a separate look at the store.
-/

namespace Verif

section
variable [Sha512] [C : Curve]

/-- What the miner takes from its surroundings. -/
structure MinerEnv where
  stack : Nat
  machine : Machine
  /-- the two readings of the clock -/
  time₁ : Time
  time₂ : Time

omit [Sha512] C in
/-- `application/miners/helper.go:15-27` (`difficulty`). -/
def MinerEnv.difficulty (E : MinerEnv) (g : Genesis) (n : Nat) : UInt64 :=
  blockDifficulty E.machine g.blockBase g.blockIncrease n

/-- `application/miners/current.go:60-112`: what `Block` does before saving: `blockBuilder` is used
without `WithAdditional`, so the number of additional transactions is 0. -/
def makeMinedBlock (E : MinerEnv) (trx : List Bytes) : Prog MinedBlock :=
  (Prog.lift (mapO fromString trx)).bind fun hashes =>
  (Prog.get fun σ => mapO (retrTrx σ) hashes).bind fun txs =>
  (Prog.get retrChain).bind fun chain =>
  (Prog.lift (blockNow (some chain.genesis) 0 (some txs) E.time₁)).bind fun block =>
  (Prog.lift (mine E.stack (E.difficulty chain.genesis txs.length) block.hash)).bind fun res =>
  Prog.lift (minedBlockNow (some block) res E.time₂)

/-- `application/miners/current.go:60-115` (`Block`). -/
def mineBlock (E : MinerEnv) (trx : List Bytes) : Prog Unit :=
  (makeMinedBlock E trx).bind saveMinedBlock

/-- `application/miners/current.go:118-173`: what `Link` does before saving: `linkBuilder` is used
without `WithIndex`, so the index is 0. -/
def makeMinedLink (E : MinerEnv) (prevMinedLink nextBlock : Bytes) : Prog MinedLink :=
  (Prog.get retrChain).bind fun chain =>
  (Prog.lift (fromString prevMinedLink)).bind fun prevHash =>
  (Prog.lift (fromString nextBlock)).bind fun nextHash =>
  (Prog.get (retrMinedLink · prevHash)).bind fun prev =>
  (Prog.get (retrBlock · nextHash)).bind fun next =>
  (Prog.lift (linkNow (some prev.hash) (some next) 0 E.time₁)).bind fun link =>
  (Prog.lift (mine E.stack chain.genesis.link link.hash)).bind fun res =>
  Prog.lift (minedLinkNow (some link) res E.time₂)

/-- `application/miners/current.go:118-177` (`Link`). -/
def mineLink (E : MinerEnv) (prevMinedLink nextBlock : Bytes) : Prog Unit :=
  (makeMinedLink E prevMinedLink nextBlock).bind saveMinedLink

end

end Verif
