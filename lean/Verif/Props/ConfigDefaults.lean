import Verif.Props.Config
/-!
# C173: the default settings
-/

namespace Verif.Props
open Verif Verif.Config

/-- Specification: the switches that are on by default (`config/local_defaults.go` of go-algorand); all others are off. -/
def switchedOn : List Field :=
  [.announceParticipationKey, .disableLocalhostConnectionRateLimit, .enableBlockServiceFallbackToArchiver, .enableGossipBlockService,
   .enableOutgoingNetworkMessageFiltering, .enablePingHandler, .telemetryToLog]

/-- Specification: the texts that are not empty by default. -/
def defaultTexts : List (Field × String) :=
  [(.dnsBootstrapId, "<network>.algorand.network"), (.endpointAddress, "127.0.0.1:0"), (.logArchiveName, "node.archive.log"),
   (.nodeExporterListenAddress, ":9100"), (.nodeExporterPath, "./node_exporter")]

/-- Specification: the numbers that are not zero by default. -/
def defaultNumbers : List (Field × Int) :=
  [(.accountsRebuildSynchronousMode, 1), (.baseLoggerDebugLevel, 4), (.broadcastConnectionsLimit, -1),
   (.cadaverSizeTarget, 1073741824), (.catchpointFileHistoryLength, 365), (.catchpointInterval, 10000),
   (.catchupBlockDownloadRetryAttempts, 1000), (.catchupFailurePeerRefreshRate, 10), (.catchupGossipBlockFetchTimeoutSec, 4),
   (.catchupHttpBlockFetchTimeoutSec, 4), (.catchupLedgerDownloadRetryAttempts, 50), (.catchupParallelBlocks, 16),
   (.connectionsRateLimitingCount, 60), (.connectionsRateLimitingWindowSeconds, 1), (.dnsSecurityFlags, 1), (.gossipFanout, 4),
   (.incomingConnectionsLimit, 10000), (.incomingMessageFilterBucketCount, 5), (.incomingMessageFilterBucketSize, 512),
   (.ledgerSynchronousMode, 2), (.logSizeLimit, 1073741824), (.maxConnectionsPerIp, 30),
   (.minCatchpointFileDownloadBytesPerSecond, 20480), (.outgoingMessageFilterBucketCount, 3),
   (.outgoingMessageFilterBucketSize, 128), (.peerConnectionsUpdateInterval, 3600), (.reservedFds, 256),
   (.restReadTimeoutSeconds, 15), (.restWriteTimeoutSeconds, 120), (.suggestedFeeBlockHistory, 3),
   (.suggestedFeeSlidingWindowSize, 50), (.txPoolExponentialIncreaseFactor, 2), (.txPoolSize, 15000),
   (.txSyncIntervalSeconds, 60), (.txSyncServeResponseSize, 1000000), (.txSyncTimeoutSeconds, 30),
   (.verifiedTranscationsCacheSize, 30000)]

/-- Specification: the times, in nanoseconds. -/
def defaultTimes : List (Field × Nat) :=
  [(.accountUpdatesStatsInterval, 5000000000), (.maxCatchpointDownloadDuration, 7200000000000),
   (.participationKeysRefreshInterval, 60000000000), (.reconnectTime, 60000000000)]

/-- Specification: the default of a setting. -/
def IsDefault (f : Field) : Val → Prop
  | .bool b => b = decide (f ∈ switchedOn)
  | .str s => s = ((defaultTexts.lookup f).getD "").toList
  | .nat n => (n : Int) = (defaultNumbers.lookup f).getD 0
  | .int n => n = (defaultNumbers.lookup f).getD 0
  | .dur secs nanos => some (secs * 1000000000 + nanos) = defaultTimes.lookup f
  | .map l => l = []

instance (f : Field) (v : Val) : Decidable (IsDefault f v) := by cases v <;> unfold IsDefault <;> infer_instance

/-- **C173**: every setting has its default, in the form that its type requires. -/
theorem C173_defaults (f : Field) : IsDefault f (Local.default f) ∧ OfTy f.ty (Local.default f) := by
  constructor
  · cases f <;> decide +kernel
  · cases f <;> simp [Field.ty, Local.default, OfTy]

/-- **C173**: a node with the default settings does not listen for others and is not archival, offers its interface on the local
machine only, without developer and profiler functions; it validates the addresses of relays in the directory, and the certificates
and contents of the blocks that it catches up with. -/
theorem C173_meaning :
    Local.default.listens = false ∧ Local.default .archival = .bool false ∧
    Local.default .endpointAddress = .str "127.0.0.1:0".toList ∧ Local.default .enableDeveloperApi = .bool false ∧
    Local.default .enableProfiler = .bool false ∧
    (∃ m, Local.default .dnsSecurityFlags = .nat m ∧ dnssecSrvEnforced m = true) ∧
    ∃ m, Local.default .catchupBlockValidateMode = .nat m ∧ catchupVerifyCertificate m = true ∧ catchupVerifyPaysetHash m = true := by
  refine ⟨by decide, rfl, by decide +kernel, rfl, rfl, ⟨_, rfl, by decide⟩, _, rfl, by decide, by decide⟩

/-- **C173**: the default settings, written to a file, are loaded as they are. -/
theorem C173_file (J : JsonLib) (fs : Fs) (path content : Str) (hc : fs path = some content)
    (hj : J.parse content = some (.obj (fileOf Local.default))) :
    ∃ c, loadFromFile J fs path = .ok c ∧ ∀ f, IsDefault f (c f) := by
  obtain ⟨c, h1, h2⟩ := C94_full_file_partial J fs path content hc Local.default (fun f => (C173_defaults f).2) hj
  refine ⟨c, h1, fun f => ?_⟩
  rw [h2 f (fun h => absurd rfl h)]
  exact (C173_defaults f).1

-- a library that reads the file
example : ∃ (J : JsonLib) (content : Str), J.parse content = some (.obj (fileOf Local.default)) :=
  ⟨⟨fun _ => some (.obj (fileOf Local.default)), fun _ => []⟩, [], rfl⟩

end Verif.Props
