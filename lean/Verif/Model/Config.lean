import Verif.Model.KeyFile
/-!
# Node configuration (src/config/mod.rs, src/config/default.rs)

The text of a JSON file is related to a JSON value by a parser and a printer that are parameters (`serde_json`).
What `serde` derives for `Local` is modelled: every setting must be present once, unknown names are ignored, an array
with all settings in order is accepted too. A file system is a partial map from paths to contents.
-/

namespace Verif.Config
open Verif

/-- A JSON value. `num` is an integer literal, `float` any other number. -/
inductive Json where
  | null
  | bool (b : Bool)
  | num (n : Int)
  | float
  | str (s : Str)
  | arr (l : List Json)
  | obj (l : List (Str × Json))

/-- The types of settings. -/
inductive Ty where
  | u32 | u64 | i32 | i64 | bool | str | dur | map
  deriving Repr, DecidableEq

/-- The value of a setting. A duration has whole seconds and nanoseconds. -/
inductive Val where
  | nat (n : Nat)
  | int (n : Int)
  | bool (b : Bool)
  | str (s : Str)
  | dur (secs nanos : Nat)
  | map (l : List (Str × Bool))
  deriving Repr, DecidableEq

/-- The settings of `Local` (lines 73-456), in the order of the source. -/
inductive Field where
  | version | archival | gossipFanout | netAddress | reconnectTime | publicAddress | maxConnectionsPerIp
  | peerPingPeriodSeconds | tlsCertFile | tlsKeyFile | baseLoggerDebugLevel | cadaverSizeTarget
  | incomingConnectionsLimit | broadcastConnectionsLimit | announceParticipationKey | priorityPeers | reservedFds
  | endpointAddress | restReadTimeoutSeconds | restWriteTimeoutSeconds | dnsBootstrapId | logSizeLimit
  | logArchiveName | logArchiveMaxAge | catchupFailurePeerRefreshRate | nodeExporterListenAddress
  | enableMetricReporting | enableTopAccountsReporting | enableAgreementReporting | enableAgreementTimeMetrics
  | nodeExporterPath | fallbackDnsResolverAddress | txPoolExponentialIncreaseFactor | suggestedFeeBlockHistory
  | txPoolSize | txSyncTimeoutSeconds | txSyncIntervalSeconds | incomingMessageFilterBucketCount
  | incomingMessageFilterBucketSize | outgoingMessageFilterBucketCount | outgoingMessageFilterBucketSize
  | enableOutgoingNetworkMessageFiltering | enableIncomingMessageFilter | deadlockDetection | runHosted
  | catchupParallelBlocks | enableAssembleStats | enableProcessBlockStats | suggestedFeeSlidingWindowSize
  | txSyncServeResponseSize | isIndexerActive | useXforwardedForAddressField | forceRelayMessages
  | connectionsRateLimitingWindowSeconds | connectionsRateLimitingCount | enableRequestLogger
  | peerConnectionsUpdateInterval | enableProfiler | telemetryToLog | dnsSecurityFlags | enablePingHandler
  | disableOutgoingConnectionThrottling | networkProtocolVersion | catchpointInterval
  | catchpointFileHistoryLength | enableLedgerService | enableBlockService | enableGossipBlockService
  | catchupHttpBlockFetchTimeoutSec | catchupGossipBlockFetchTimeoutSec | catchupLedgerDownloadRetryAttempts
  | catchupBlockDownloadRetryAttempts | enableDeveloperApi | optimizeAccountsDatabaseOnStartup
  | catchpointTracking | ledgerSynchronousMode | accountsRebuildSynchronousMode | maxCatchpointDownloadDuration
  | minCatchpointFileDownloadBytesPerSecond | networkMessageTraceServer | verifiedTranscationsCacheSize
  | enableCatchupFromArchiveServers | disableLocalhostConnectionRateLimit | blockServiceCustomFallbackEndpoints
  | enableBlockServiceFallbackToArchiver | catchupBlockValidateMode | enableAccountUpdatesStats
  | accountUpdatesStatsInterval | participationKeysRefreshInterval | disableNetworking
  deriving Repr, DecidableEq

/-- All settings, in the order of the source. -/
def Field.all : List Field :=
  [.version, .archival, .gossipFanout, .netAddress, .reconnectTime, .publicAddress, .maxConnectionsPerIp,
   .peerPingPeriodSeconds, .tlsCertFile, .tlsKeyFile, .baseLoggerDebugLevel, .cadaverSizeTarget,
   .incomingConnectionsLimit, .broadcastConnectionsLimit, .announceParticipationKey, .priorityPeers, .reservedFds,
   .endpointAddress, .restReadTimeoutSeconds, .restWriteTimeoutSeconds, .dnsBootstrapId, .logSizeLimit,
   .logArchiveName, .logArchiveMaxAge, .catchupFailurePeerRefreshRate, .nodeExporterListenAddress,
   .enableMetricReporting, .enableTopAccountsReporting, .enableAgreementReporting, .enableAgreementTimeMetrics,
   .nodeExporterPath, .fallbackDnsResolverAddress, .txPoolExponentialIncreaseFactor, .suggestedFeeBlockHistory,
   .txPoolSize, .txSyncTimeoutSeconds, .txSyncIntervalSeconds, .incomingMessageFilterBucketCount,
   .incomingMessageFilterBucketSize, .outgoingMessageFilterBucketCount, .outgoingMessageFilterBucketSize,
   .enableOutgoingNetworkMessageFiltering, .enableIncomingMessageFilter, .deadlockDetection, .runHosted,
   .catchupParallelBlocks, .enableAssembleStats, .enableProcessBlockStats, .suggestedFeeSlidingWindowSize,
   .txSyncServeResponseSize, .isIndexerActive, .useXforwardedForAddressField, .forceRelayMessages,
   .connectionsRateLimitingWindowSeconds, .connectionsRateLimitingCount, .enableRequestLogger,
   .peerConnectionsUpdateInterval, .enableProfiler, .telemetryToLog, .dnsSecurityFlags, .enablePingHandler,
   .disableOutgoingConnectionThrottling, .networkProtocolVersion, .catchpointInterval,
   .catchpointFileHistoryLength, .enableLedgerService, .enableBlockService, .enableGossipBlockService,
   .catchupHttpBlockFetchTimeoutSec, .catchupGossipBlockFetchTimeoutSec, .catchupLedgerDownloadRetryAttempts,
   .catchupBlockDownloadRetryAttempts, .enableDeveloperApi, .optimizeAccountsDatabaseOnStartup,
   .catchpointTracking, .ledgerSynchronousMode, .accountsRebuildSynchronousMode, .maxCatchpointDownloadDuration,
   .minCatchpointFileDownloadBytesPerSecond, .networkMessageTraceServer, .verifiedTranscationsCacheSize,
   .enableCatchupFromArchiveServers, .disableLocalhostConnectionRateLimit, .blockServiceCustomFallbackEndpoints,
   .enableBlockServiceFallbackToArchiver, .catchupBlockValidateMode, .enableAccountUpdatesStats,
   .accountUpdatesStatsInterval, .participationKeysRefreshInterval, .disableNetworking]

/-- The name of a setting in the file: serde uses the name of the field. -/
def Field.name : Field → Str
  | .version => ['v', 'e', 'r', 's', 'i', 'o', 'n']
  | .archival => ['a', 'r', 'c', 'h', 'i', 'v', 'a', 'l']
  | .gossipFanout => ['g', 'o', 's', 's', 'i', 'p', '_', 'f', 'a', 'n', 'o', 'u', 't']
  | .netAddress => ['n', 'e', 't', '_', 'a', 'd', 'd', 'r', 'e', 's', 's']
  | .reconnectTime => ['r', 'e', 'c', 'o', 'n', 'n', 'e', 'c', 't', '_', 't', 'i', 'm', 'e']
  | .publicAddress => ['p', 'u', 'b', 'l', 'i', 'c', '_', 'a', 'd', 'd', 'r', 'e', 's', 's']
  | .maxConnectionsPerIp =>
      ['m', 'a', 'x', '_', 'c', 'o', 'n', 'n', 'e', 'c', 't',
      'i', 'o', 'n', 's', '_', 'p', 'e', 'r', '_', 'i', 'p']
  | .peerPingPeriodSeconds =>
      ['p', 'e', 'e', 'r', '_', 'p', 'i', 'n', 'g', '_', 'p', 'e',
      'r', 'i', 'o', 'd', '_', 's', 'e', 'c', 'o', 'n', 'd', 's']
  | .tlsCertFile => ['t', 'l', 's', '_', 'c', 'e', 'r', 't', '_', 'f', 'i', 'l', 'e']
  | .tlsKeyFile => ['t', 'l', 's', '_', 'k', 'e', 'y', '_', 'f', 'i', 'l', 'e']
  | .baseLoggerDebugLevel =>
      ['b', 'a', 's', 'e', '_', 'l', 'o', 'g', 'g', 'e', 'r',
      '_', 'd', 'e', 'b', 'u', 'g', '_', 'l', 'e', 'v', 'e', 'l']
  | .cadaverSizeTarget =>
      ['c', 'a', 'd', 'a', 'v', 'e', 'r', '_', 's',
      'i', 'z', 'e', '_', 't', 'a', 'r', 'g', 'e', 't']
  | .incomingConnectionsLimit =>
      ['i', 'n', 'c', 'o', 'm', 'i', 'n', 'g', '_', 'c', 'o', 'n', 'n',
      'e', 'c', 't', 'i', 'o', 'n', 's', '_', 'l', 'i', 'm', 'i', 't']
  | .broadcastConnectionsLimit =>
      ['b', 'r', 'o', 'a', 'd', 'c', 'a', 's', 't', '_', 'c', 'o', 'n',
      'n', 'e', 'c', 't', 'i', 'o', 'n', 's', '_', 'l', 'i', 'm', 'i', 't']
  | .announceParticipationKey =>
      ['a', 'n', 'n', 'o', 'u', 'n', 'c', 'e', '_', 'p', 'a', 'r', 't',
      'i', 'c', 'i', 'p', 'a', 't', 'i', 'o', 'n', '_', 'k', 'e', 'y']
  | .priorityPeers => ['p', 'r', 'i', 'o', 'r', 'i', 't', 'y', '_', 'p', 'e', 'e', 'r', 's']
  | .reservedFds => ['r', 'e', 's', 'e', 'r', 'v', 'e', 'd', '_', 'f', 'd', 's']
  | .endpointAddress => ['e', 'n', 'd', 'p', 'o', 'i', 'n', 't', '_', 'a', 'd', 'd', 'r', 'e', 's', 's']
  | .restReadTimeoutSeconds =>
      ['r', 'e', 's', 't', '_', 'r', 'e', 'a', 'd', '_', 't', 'i',
      'm', 'e', 'o', 'u', 't', '_', 's', 'e', 'c', 'o', 'n', 'd', 's']
  | .restWriteTimeoutSeconds =>
      ['r', 'e', 's', 't', '_', 'w', 'r', 'i', 't', 'e', '_', 't', 'i',
      'm', 'e', 'o', 'u', 't', '_', 's', 'e', 'c', 'o', 'n', 'd', 's']
  | .dnsBootstrapId => ['d', 'n', 's', '_', 'b', 'o', 'o', 't', 's', 't', 'r', 'a', 'p', '_', 'i', 'd']
  | .logSizeLimit => ['l', 'o', 'g', '_', 's', 'i', 'z', 'e', '_', 'l', 'i', 'm', 'i', 't']
  | .logArchiveName => ['l', 'o', 'g', '_', 'a', 'r', 'c', 'h', 'i', 'v', 'e', '_', 'n', 'a', 'm', 'e']
  | .logArchiveMaxAge => ['l', 'o', 'g', '_', 'a', 'r', 'c', 'h', 'i', 'v', 'e', '_', 'm', 'a', 'x', '_', 'a', 'g', 'e']
  | .catchupFailurePeerRefreshRate =>
      ['c', 'a', 't', 'c', 'h', 'u', 'p', '_', 'f', 'a', 'i', 'l', 'u', 'r', 'e', '_',
      'p', 'e', 'e', 'r', '_', 'r', 'e', 'f', 'r', 'e', 's', 'h', '_', 'r', 'a', 't', 'e']
  | .nodeExporterListenAddress =>
      ['n', 'o', 'd', 'e', '_', 'e', 'x', 'p', 'o', 'r', 't', 'e', 'r', '_',
      'l', 'i', 's', 't', 'e', 'n', '_', 'a', 'd', 'd', 'r', 'e', 's', 's']
  | .enableMetricReporting =>
      ['e', 'n', 'a', 'b', 'l', 'e', '_', 'm', 'e', 't', 'r',
      'i', 'c', '_', 'r', 'e', 'p', 'o', 'r', 't', 'i', 'n', 'g']
  | .enableTopAccountsReporting =>
      ['e', 'n', 'a', 'b', 'l', 'e', '_', 't', 'o', 'p', '_', 'a', 'c', 'c',
      'o', 'u', 'n', 't', 's', '_', 'r', 'e', 'p', 'o', 'r', 't', 'i', 'n', 'g']
  | .enableAgreementReporting =>
      ['e', 'n', 'a', 'b', 'l', 'e', '_', 'a', 'g', 'r', 'e', 'e', 'm',
      'e', 'n', 't', '_', 'r', 'e', 'p', 'o', 'r', 't', 'i', 'n', 'g']
  | .enableAgreementTimeMetrics =>
      ['e', 'n', 'a', 'b', 'l', 'e', '_', 'a', 'g', 'r', 'e', 'e', 'm', 'e',
      'n', 't', '_', 't', 'i', 'm', 'e', '_', 'm', 'e', 't', 'r', 'i', 'c', 's']
  | .nodeExporterPath => ['n', 'o', 'd', 'e', '_', 'e', 'x', 'p', 'o', 'r', 't', 'e', 'r', '_', 'p', 'a', 't', 'h']
  | .fallbackDnsResolverAddress =>
      ['f', 'a', 'l', 'l', 'b', 'a', 'c', 'k', '_', 'd', 'n', 's', '_', 'r',
      'e', 's', 'o', 'l', 'v', 'e', 'r', '_', 'a', 'd', 'd', 'r', 'e', 's', 's']
  | .txPoolExponentialIncreaseFactor =>
      ['t', 'x', '_', 'p', 'o', 'o', 'l', '_', 'e', 'x', 'p', 'o', 'n', 'e', 'n', 't', 'i',
      'a', 'l', '_', 'i', 'n', 'c', 'r', 'e', 'a', 's', 'e', '_', 'f', 'a', 'c', 't', 'o', 'r']
  | .suggestedFeeBlockHistory =>
      ['s', 'u', 'g', 'g', 'e', 's', 't', 'e', 'd', '_', 'f', 'e', 'e',
      '_', 'b', 'l', 'o', 'c', 'k', '_', 'h', 'i', 's', 't', 'o', 'r', 'y']
  | .txPoolSize => ['t', 'x', '_', 'p', 'o', 'o', 'l', '_', 's', 'i', 'z', 'e']
  | .txSyncTimeoutSeconds =>
      ['t', 'x', '_', 's', 'y', 'n', 'c', '_', 't', 'i', 'm',
      'e', 'o', 'u', 't', '_', 's', 'e', 'c', 'o', 'n', 'd', 's']
  | .txSyncIntervalSeconds =>
      ['t', 'x', '_', 's', 'y', 'n', 'c', '_', 'i', 'n', 't', 'e',
      'r', 'v', 'a', 'l', '_', 's', 'e', 'c', 'o', 'n', 'd', 's']
  | .incomingMessageFilterBucketCount =>
      ['i', 'n', 'c', 'o', 'm', 'i', 'n', 'g', '_', 'm', 'e', 's', 's', 'a', 'g', 'e', '_', 'f',
      'i', 'l', 't', 'e', 'r', '_', 'b', 'u', 'c', 'k', 'e', 't', '_', 'c', 'o', 'u', 'n', 't']
  | .incomingMessageFilterBucketSize =>
      ['i', 'n', 'c', 'o', 'm', 'i', 'n', 'g', '_', 'm', 'e', 's', 's', 'a', 'g', 'e', '_',
      'f', 'i', 'l', 't', 'e', 'r', '_', 'b', 'u', 'c', 'k', 'e', 't', '_', 's', 'i', 'z', 'e']
  | .outgoingMessageFilterBucketCount =>
      ['o', 'u', 't', 'g', 'o', 'i', 'n', 'g', '_', 'm', 'e', 's', 's', 'a', 'g', 'e', '_', 'f',
      'i', 'l', 't', 'e', 'r', '_', 'b', 'u', 'c', 'k', 'e', 't', '_', 'c', 'o', 'u', 'n', 't']
  | .outgoingMessageFilterBucketSize =>
      ['o', 'u', 't', 'g', 'o', 'i', 'n', 'g', '_', 'm', 'e', 's', 's', 'a', 'g', 'e', '_',
      'f', 'i', 'l', 't', 'e', 'r', '_', 'b', 'u', 'c', 'k', 'e', 't', '_', 's', 'i', 'z', 'e']
  | .enableOutgoingNetworkMessageFiltering =>
      ['e', 'n', 'a', 'b', 'l', 'e', '_', 'o', 'u', 't', 'g', 'o', 'i', 'n', 'g', '_', 'n', 'e', 't', 'w',
      'o', 'r', 'k', '_', 'm', 'e', 's', 's', 'a', 'g', 'e', '_', 'f', 'i', 'l', 't', 'e', 'r', 'i', 'n', 'g']
  | .enableIncomingMessageFilter =>
      ['e', 'n', 'a', 'b', 'l', 'e', '_', 'i', 'n', 'c', 'o', 'm', 'i', 'n', 'g',
      '_', 'm', 'e', 's', 's', 'a', 'g', 'e', '_', 'f', 'i', 'l', 't', 'e', 'r']
  | .deadlockDetection => ['d', 'e', 'a', 'd', 'l', 'o', 'c', 'k', '_', 'd', 'e', 't', 'e', 'c', 't', 'i', 'o', 'n']
  | .runHosted => ['r', 'u', 'n', '_', 'h', 'o', 's', 't', 'e', 'd']
  | .catchupParallelBlocks =>
      ['c', 'a', 't', 'c', 'h', 'u', 'p', '_', 'p', 'a', 'r',
      'a', 'l', 'l', 'e', 'l', '_', 'b', 'l', 'o', 'c', 'k', 's']
  | .enableAssembleStats =>
      ['e', 'n', 'a', 'b', 'l', 'e', '_', 'a', 's', 's',
      'e', 'm', 'b', 'l', 'e', '_', 's', 't', 'a', 't', 's']
  | .enableProcessBlockStats =>
      ['e', 'n', 'a', 'b', 'l', 'e', '_', 'p', 'r', 'o', 'c', 'e', 's',
      's', '_', 'b', 'l', 'o', 'c', 'k', '_', 's', 't', 'a', 't', 's']
  | .suggestedFeeSlidingWindowSize =>
      ['s', 'u', 'g', 'g', 'e', 's', 't', 'e', 'd', '_', 'f', 'e', 'e', '_', 's', 'l',
      'i', 'd', 'i', 'n', 'g', '_', 'w', 'i', 'n', 'd', 'o', 'w', '_', 's', 'i', 'z', 'e']
  | .txSyncServeResponseSize =>
      ['t', 'x', '_', 's', 'y', 'n', 'c', '_', 's', 'e', 'r', 'v', 'e',
      '_', 'r', 'e', 's', 'p', 'o', 'n', 's', 'e', '_', 's', 'i', 'z', 'e']
  | .isIndexerActive => ['i', 's', '_', 'i', 'n', 'd', 'e', 'x', 'e', 'r', '_', 'a', 'c', 't', 'i', 'v', 'e']
  | .useXforwardedForAddressField =>
      ['u', 's', 'e', '_', 'x', 'f', 'o', 'r', 'w', 'a', 'r', 'd', 'e', 'd', '_', 'f',
      'o', 'r', '_', 'a', 'd', 'd', 'r', 'e', 's', 's', '_', 'f', 'i', 'e', 'l', 'd']
  | .forceRelayMessages =>
      ['f', 'o', 'r', 'c', 'e', '_', 'r', 'e', 'l', 'a',
      'y', '_', 'm', 'e', 's', 's', 'a', 'g', 'e', 's']
  | .connectionsRateLimitingWindowSeconds =>
      ['c', 'o', 'n', 'n', 'e', 'c', 't', 'i', 'o', 'n', 's', '_', 'r', 'a', 't', 'e', '_', 'l', 'i', 'm',
      'i', 't', 'i', 'n', 'g', '_', 'w', 'i', 'n', 'd', 'o', 'w', '_', 's', 'e', 'c', 'o', 'n', 'd', 's']
  | .connectionsRateLimitingCount =>
      ['c', 'o', 'n', 'n', 'e', 'c', 't', 'i', 'o', 'n', 's', '_', 'r', 'a', 't',
      'e', '_', 'l', 'i', 'm', 'i', 't', 'i', 'n', 'g', '_', 'c', 'o', 'u', 'n', 't']
  | .enableRequestLogger =>
      ['e', 'n', 'a', 'b', 'l', 'e', '_', 'r', 'e', 'q',
      'u', 'e', 's', 't', '_', 'l', 'o', 'g', 'g', 'e', 'r']
  | .peerConnectionsUpdateInterval =>
      ['p', 'e', 'e', 'r', '_', 'c', 'o', 'n', 'n', 'e', 'c', 't', 'i', 'o', 'n', 's',
      '_', 'u', 'p', 'd', 'a', 't', 'e', '_', 'i', 'n', 't', 'e', 'r', 'v', 'a', 'l']
  | .enableProfiler => ['e', 'n', 'a', 'b', 'l', 'e', '_', 'p', 'r', 'o', 'f', 'i', 'l', 'e', 'r']
  | .telemetryToLog => ['t', 'e', 'l', 'e', 'm', 'e', 't', 'r', 'y', '_', 't', 'o', '_', 'l', 'o', 'g']
  | .dnsSecurityFlags => ['d', 'n', 's', '_', 's', 'e', 'c', 'u', 'r', 'i', 't', 'y', '_', 'f', 'l', 'a', 'g', 's']
  | .enablePingHandler =>
      ['e', 'n', 'a', 'b', 'l', 'e', '_', 'p', 'i',
      'n', 'g', '_', 'h', 'a', 'n', 'd', 'l', 'e', 'r']
  | .disableOutgoingConnectionThrottling =>
      ['d', 'i', 's', 'a', 'b', 'l', 'e', '_', 'o', 'u', 't', 'g', 'o', 'i', 'n', 'g', '_', 'c', 'o',
      'n', 'n', 'e', 'c', 't', 'i', 'o', 'n', '_', 't', 'h', 'r', 'o', 't', 't', 'l', 'i', 'n', 'g']
  | .networkProtocolVersion =>
      ['n', 'e', 't', 'w', 'o', 'r', 'k', '_', 'p', 'r', 'o', 't',
      'o', 'c', 'o', 'l', '_', 'v', 'e', 'r', 's', 'i', 'o', 'n']
  | .catchpointInterval =>
      ['c', 'a', 't', 'c', 'h', 'p', 'o', 'i', 'n',
      't', '_', 'i', 'n', 't', 'e', 'r', 'v', 'a', 'l']
  | .catchpointFileHistoryLength =>
      ['c', 'a', 't', 'c', 'h', 'p', 'o', 'i', 'n', 't', '_', 'f', 'i', 'l', 'e',
      '_', 'h', 'i', 's', 't', 'o', 'r', 'y', '_', 'l', 'e', 'n', 'g', 't', 'h']
  | .enableLedgerService =>
      ['e', 'n', 'a', 'b', 'l', 'e', '_', 'l', 'e', 'd',
      'g', 'e', 'r', '_', 's', 'e', 'r', 'v', 'i', 'c', 'e']
  | .enableBlockService =>
      ['e', 'n', 'a', 'b', 'l', 'e', '_', 'b', 'l', 'o',
      'c', 'k', '_', 's', 'e', 'r', 'v', 'i', 'c', 'e']
  | .enableGossipBlockService =>
      ['e', 'n', 'a', 'b', 'l', 'e', '_', 'g', 'o', 's', 's', 'i', 'p',
      '_', 'b', 'l', 'o', 'c', 'k', '_', 's', 'e', 'r', 'v', 'i', 'c', 'e']
  | .catchupHttpBlockFetchTimeoutSec =>
      ['c', 'a', 't', 'c', 'h', 'u', 'p', '_', 'h', 't', 't', 'p', '_', 'b', 'l', 'o', 'c', 'k',
      '_', 'f', 'e', 't', 'c', 'h', '_', 't', 'i', 'm', 'e', 'o', 'u', 't', '_', 's', 'e', 'c']
  | .catchupGossipBlockFetchTimeoutSec =>
      ['c', 'a', 't', 'c', 'h', 'u', 'p', '_', 'g', 'o', 's', 's', 'i', 'p', '_', 'b', 'l', 'o', 'c',
      'k', '_', 'f', 'e', 't', 'c', 'h', '_', 't', 'i', 'm', 'e', 'o', 'u', 't', '_', 's', 'e', 'c']
  | .catchupLedgerDownloadRetryAttempts =>
      ['c', 'a', 't', 'c', 'h', 'u', 'p', '_', 'l', 'e', 'd', 'g', 'e', 'r', '_', 'd', 'o', 'w', 'n',
      'l', 'o', 'a', 'd', '_', 'r', 'e', 't', 'r', 'y', '_', 'a', 't', 't', 'e', 'm', 'p', 't', 's']
  | .catchupBlockDownloadRetryAttempts =>
      ['c', 'a', 't', 'c', 'h', 'u', 'p', '_', 'b', 'l', 'o', 'c', 'k', '_', 'd', 'o', 'w', 'n',
      'l', 'o', 'a', 'd', '_', 'r', 'e', 't', 'r', 'y', '_', 'a', 't', 't', 'e', 'm', 'p', 't', 's']
  | .enableDeveloperApi =>
      ['e', 'n', 'a', 'b', 'l', 'e', '_', 'd', 'e', 'v',
      'e', 'l', 'o', 'p', 'e', 'r', '_', 'a', 'p', 'i']
  | .optimizeAccountsDatabaseOnStartup =>
      ['o', 'p', 't', 'i', 'm', 'i', 'z', 'e', '_', 'a', 'c', 'c', 'o', 'u', 'n', 't', 's', '_',
      'd', 'a', 't', 'a', 'b', 'a', 's', 'e', '_', 'o', 'n', '_', 's', 't', 'a', 'r', 't', 'u', 'p']
  | .catchpointTracking =>
      ['c', 'a', 't', 'c', 'h', 'p', 'o', 'i', 'n',
      't', '_', 't', 'r', 'a', 'c', 'k', 'i', 'n', 'g']
  | .ledgerSynchronousMode =>
      ['l', 'e', 'd', 'g', 'e', 'r', '_', 's', 'y', 'n', 'c',
      'h', 'r', 'o', 'n', 'o', 'u', 's', '_', 'm', 'o', 'd', 'e']
  | .accountsRebuildSynchronousMode =>
      ['a', 'c', 'c', 'o', 'u', 'n', 't', 's', '_', 'r', 'e', 'b', 'u', 'i', 'l', 'd',
      '_', 's', 'y', 'n', 'c', 'h', 'r', 'o', 'n', 'o', 'u', 's', '_', 'm', 'o', 'd', 'e']
  | .maxCatchpointDownloadDuration =>
      ['m', 'a', 'x', '_', 'c', 'a', 't', 'c', 'h', 'p', 'o', 'i', 'n', 't', '_', 'd',
      'o', 'w', 'n', 'l', 'o', 'a', 'd', '_', 'd', 'u', 'r', 'a', 't', 'i', 'o', 'n']
  | .minCatchpointFileDownloadBytesPerSecond =>
      ['m', 'i', 'n', '_', 'c', 'a', 't', 'c', 'h', 'p', 'o', 'i', 'n', 't', '_', 'f', 'i', 'l', 'e', '_', 'd', 'o',
      'w', 'n', 'l', 'o', 'a', 'd', '_', 'b', 'y', 't', 'e', 's', '_', 'p', 'e', 'r', '_', 's', 'e', 'c', 'o', 'n', 'd']
  | .networkMessageTraceServer =>
      ['n', 'e', 't', 'w', 'o', 'r', 'k', '_', 'm', 'e', 's', 's', 'a', 'g',
      'e', '_', 't', 'r', 'a', 'c', 'e', '_', 's', 'e', 'r', 'v', 'e', 'r']
  | .verifiedTranscationsCacheSize =>
      ['v', 'e', 'r', 'i', 'f', 'i', 'e', 'd', '_', 't', 'r', 'a', 'n', 's', 'c', 'a',
      't', 'i', 'o', 'n', 's', '_', 'c', 'a', 'c', 'h', 'e', '_', 's', 'i', 'z', 'e']
  | .enableCatchupFromArchiveServers =>
      ['e', 'n', 'a', 'b', 'l', 'e', '_', 'c', 'a', 't', 'c', 'h', 'u', 'p', '_', 'f', 'r',
      'o', 'm', '_', 'a', 'r', 'c', 'h', 'i', 'v', 'e', '_', 's', 'e', 'r', 'v', 'e', 'r', 's']
  | .disableLocalhostConnectionRateLimit =>
      ['d', 'i', 's', 'a', 'b', 'l', 'e', '_', 'l', 'o', 'c', 'a', 'l', 'h', 'o', 's', 't', '_', 'c',
      'o', 'n', 'n', 'e', 'c', 't', 'i', 'o', 'n', '_', 'r', 'a', 't', 'e', '_', 'l', 'i', 'm', 'i', 't']
  | .blockServiceCustomFallbackEndpoints =>
      ['b', 'l', 'o', 'c', 'k', '_', 's', 'e', 'r', 'v', 'i', 'c', 'e', '_', 'c', 'u', 's', 't', 'o',
      'm', '_', 'f', 'a', 'l', 'l', 'b', 'a', 'c', 'k', '_', 'e', 'n', 'd', 'p', 'o', 'i', 'n', 't', 's']
  | .enableBlockServiceFallbackToArchiver =>
      ['e', 'n', 'a', 'b', 'l', 'e', '_', 'b', 'l', 'o', 'c', 'k', '_', 's', 'e', 'r', 'v', 'i', 'c', 'e',
      '_', 'f', 'a', 'l', 'l', 'b', 'a', 'c', 'k', '_', 't', 'o', '_', 'a', 'r', 'c', 'h', 'i', 'v', 'e', 'r']
  | .catchupBlockValidateMode =>
      ['c', 'a', 't', 'c', 'h', 'u', 'p', '_', 'b', 'l', 'o', 'c', 'k',
      '_', 'v', 'a', 'l', 'i', 'd', 'a', 't', 'e', '_', 'm', 'o', 'd', 'e']
  | .enableAccountUpdatesStats =>
      ['e', 'n', 'a', 'b', 'l', 'e', '_', 'a', 'c', 'c', 'o', 'u', 'n', 't',
      '_', 'u', 'p', 'd', 'a', 't', 'e', 's', '_', 's', 't', 'a', 't', 's']
  | .accountUpdatesStatsInterval =>
      ['a', 'c', 'c', 'o', 'u', 'n', 't', '_', 'u', 'p', 'd', 'a', 't', 'e', 's',
      '_', 's', 't', 'a', 't', 's', '_', 'i', 'n', 't', 'e', 'r', 'v', 'a', 'l']
  | .participationKeysRefreshInterval =>
      ['p', 'a', 'r', 't', 'i', 'c', 'i', 'p', 'a', 't', 'i', 'o', 'n', '_', 'k', 'e', 'y',
      's', '_', 'r', 'e', 'f', 'r', 'e', 's', 'h', '_', 'i', 'n', 't', 'e', 'r', 'v', 'a', 'l']
  | .disableNetworking => ['d', 'i', 's', 'a', 'b', 'l', 'e', '_', 'n', 'e', 't', 'w', 'o', 'r', 'k', 'i', 'n', 'g']

/-- The type of a setting. -/
def Field.ty : Field → Ty
  | .version => .u32
  | .archival => .bool
  | .gossipFanout => .u32
  | .netAddress => .str
  | .reconnectTime => .dur
  | .publicAddress => .str
  | .maxConnectionsPerIp => .i32
  | .peerPingPeriodSeconds => .i32
  | .tlsCertFile => .str
  | .tlsKeyFile => .str
  | .baseLoggerDebugLevel => .u32
  | .cadaverSizeTarget => .u64
  | .incomingConnectionsLimit => .i32
  | .broadcastConnectionsLimit => .i32
  | .announceParticipationKey => .bool
  | .priorityPeers => .map
  | .reservedFds => .u64
  | .endpointAddress => .str
  | .restReadTimeoutSeconds => .i32
  | .restWriteTimeoutSeconds => .i32
  | .dnsBootstrapId => .str
  | .logSizeLimit => .u64
  | .logArchiveName => .str
  | .logArchiveMaxAge => .str
  | .catchupFailurePeerRefreshRate => .i32
  | .nodeExporterListenAddress => .str
  | .enableMetricReporting => .bool
  | .enableTopAccountsReporting => .bool
  | .enableAgreementReporting => .bool
  | .enableAgreementTimeMetrics => .bool
  | .nodeExporterPath => .str
  | .fallbackDnsResolverAddress => .str
  | .txPoolExponentialIncreaseFactor => .u64
  | .suggestedFeeBlockHistory => .i32
  | .txPoolSize => .i32
  | .txSyncTimeoutSeconds => .i64
  | .txSyncIntervalSeconds => .i64
  | .incomingMessageFilterBucketCount => .i32
  | .incomingMessageFilterBucketSize => .i32
  | .outgoingMessageFilterBucketCount => .i32
  | .outgoingMessageFilterBucketSize => .i32
  | .enableOutgoingNetworkMessageFiltering => .bool
  | .enableIncomingMessageFilter => .bool
  | .deadlockDetection => .i32
  | .runHosted => .bool
  | .catchupParallelBlocks => .u64
  | .enableAssembleStats => .bool
  | .enableProcessBlockStats => .bool
  | .suggestedFeeSlidingWindowSize => .u32
  | .txSyncServeResponseSize => .i32
  | .isIndexerActive => .bool
  | .useXforwardedForAddressField => .str
  | .forceRelayMessages => .bool
  | .connectionsRateLimitingWindowSeconds => .u32
  | .connectionsRateLimitingCount => .u32
  | .enableRequestLogger => .bool
  | .peerConnectionsUpdateInterval => .i32
  | .enableProfiler => .bool
  | .telemetryToLog => .bool
  | .dnsSecurityFlags => .u32
  | .enablePingHandler => .bool
  | .disableOutgoingConnectionThrottling => .bool
  | .networkProtocolVersion => .str
  | .catchpointInterval => .u64
  | .catchpointFileHistoryLength => .i32
  | .enableLedgerService => .bool
  | .enableBlockService => .bool
  | .enableGossipBlockService => .bool
  | .catchupHttpBlockFetchTimeoutSec => .i32
  | .catchupGossipBlockFetchTimeoutSec => .i32
  | .catchupLedgerDownloadRetryAttempts => .i32
  | .catchupBlockDownloadRetryAttempts => .i32
  | .enableDeveloperApi => .bool
  | .optimizeAccountsDatabaseOnStartup => .bool
  | .catchpointTracking => .i64
  | .ledgerSynchronousMode => .i32
  | .accountsRebuildSynchronousMode => .i32
  | .maxCatchpointDownloadDuration => .dur
  | .minCatchpointFileDownloadBytesPerSecond => .u64
  | .networkMessageTraceServer => .str
  | .verifiedTranscationsCacheSize => .i32
  | .enableCatchupFromArchiveServers => .bool
  | .disableLocalhostConnectionRateLimit => .bool
  | .blockServiceCustomFallbackEndpoints => .str
  | .enableBlockServiceFallbackToArchiver => .bool
  | .catchupBlockValidateMode => .u32
  | .enableAccountUpdatesStats => .bool
  | .accountUpdatesStatsInterval => .dur
  | .participationKeysRefreshInterval => .dur
  | .disableNetworking => .bool

/-- `Local`: the values of all settings. -/
abbrev Local := Field → Val

/-- `Local::default` (default.rs lines 9-103). -/
def Local.default : Local
  | .version => .nat 0
  | .archival => .bool false
  | .gossipFanout => .nat 4
  | .netAddress => .str []
  | .reconnectTime => .dur 60 0
  | .publicAddress => .str []
  | .maxConnectionsPerIp => .int (30)
  | .peerPingPeriodSeconds => .int (0)
  | .tlsCertFile => .str []
  | .tlsKeyFile => .str []
  | .baseLoggerDebugLevel => .nat 4
  | .cadaverSizeTarget => .nat 1073741824
  | .incomingConnectionsLimit => .int (10000)
  | .broadcastConnectionsLimit => .int (-1)
  | .announceParticipationKey => .bool true
  | .priorityPeers => .map []
  | .reservedFds => .nat 256
  | .endpointAddress => .str ['1', '2', '7', '.', '0', '.', '0', '.', '1', ':', '0']
  | .restReadTimeoutSeconds => .int (15)
  | .restWriteTimeoutSeconds => .int (120)
  | .dnsBootstrapId => .str ['<', 'n', 'e', 't', 'w', 'o', 'r', 'k', '>', '.', 'a', 'l', 'g', 'o', 'r', 'a', 'n', 'd', '.', 'n', 'e', 't', 'w', 'o', 'r', 'k']
  | .logSizeLimit => .nat 1073741824
  | .logArchiveName => .str ['n', 'o', 'd', 'e', '.', 'a', 'r', 'c', 'h', 'i', 'v', 'e', '.', 'l', 'o', 'g']
  | .logArchiveMaxAge => .str []
  | .catchupFailurePeerRefreshRate => .int (10)
  | .nodeExporterListenAddress => .str [':', '9', '1', '0', '0']
  | .enableMetricReporting => .bool false
  | .enableTopAccountsReporting => .bool false
  | .enableAgreementReporting => .bool false
  | .enableAgreementTimeMetrics => .bool false
  | .nodeExporterPath => .str ['.', '/', 'n', 'o', 'd', 'e', '_', 'e', 'x', 'p', 'o', 'r', 't', 'e', 'r']
  | .fallbackDnsResolverAddress => .str []
  | .txPoolExponentialIncreaseFactor => .nat 2
  | .suggestedFeeBlockHistory => .int (3)
  | .txPoolSize => .int (15000)
  | .txSyncTimeoutSeconds => .int (30)
  | .txSyncIntervalSeconds => .int (60)
  | .incomingMessageFilterBucketCount => .int (5)
  | .incomingMessageFilterBucketSize => .int (512)
  | .outgoingMessageFilterBucketCount => .int (3)
  | .outgoingMessageFilterBucketSize => .int (128)
  | .enableOutgoingNetworkMessageFiltering => .bool true
  | .enableIncomingMessageFilter => .bool false
  | .deadlockDetection => .int (0)
  | .runHosted => .bool false
  | .catchupParallelBlocks => .nat 16
  | .enableAssembleStats => .bool false
  | .enableProcessBlockStats => .bool false
  | .suggestedFeeSlidingWindowSize => .nat 50
  | .txSyncServeResponseSize => .int (1000000)
  | .isIndexerActive => .bool false
  | .useXforwardedForAddressField => .str []
  | .forceRelayMessages => .bool false
  | .connectionsRateLimitingWindowSeconds => .nat 1
  | .connectionsRateLimitingCount => .nat 60
  | .enableRequestLogger => .bool false
  | .peerConnectionsUpdateInterval => .int (3600)
  | .enableProfiler => .bool false
  | .telemetryToLog => .bool true
  | .dnsSecurityFlags => .nat 1
  | .enablePingHandler => .bool true
  | .disableOutgoingConnectionThrottling => .bool false
  | .networkProtocolVersion => .str []
  | .catchpointInterval => .nat 10000
  | .catchpointFileHistoryLength => .int (365)
  | .enableLedgerService => .bool false
  | .enableBlockService => .bool false
  | .enableGossipBlockService => .bool true
  | .catchupHttpBlockFetchTimeoutSec => .int (4)
  | .catchupGossipBlockFetchTimeoutSec => .int (4)
  | .catchupLedgerDownloadRetryAttempts => .int (50)
  | .catchupBlockDownloadRetryAttempts => .int (1000)
  | .enableDeveloperApi => .bool false
  | .optimizeAccountsDatabaseOnStartup => .bool false
  | .catchpointTracking => .int (0)
  | .ledgerSynchronousMode => .int (2)
  | .accountsRebuildSynchronousMode => .int (1)
  | .maxCatchpointDownloadDuration => .dur 7200 0
  | .minCatchpointFileDownloadBytesPerSecond => .nat 20480
  | .networkMessageTraceServer => .str []
  | .verifiedTranscationsCacheSize => .int (30000)
  | .enableCatchupFromArchiveServers => .bool false
  | .disableLocalhostConnectionRateLimit => .bool true
  | .blockServiceCustomFallbackEndpoints => .str []
  | .enableBlockServiceFallbackToArchiver => .bool true
  | .catchupBlockValidateMode => .nat 0
  | .enableAccountUpdatesStats => .bool false
  | .accountUpdatesStatsInterval => .dur 5 0
  | .participationKeysRefreshInterval => .dur 60 0
  | .disableNetworking => .bool false

/-- An unsigned integer below a bound. -/
def decNat (bound : Nat) : Json → Option Nat
  | .num n => if 0 ≤ n ∧ n.toNat < bound then some n.toNat else none
  | _ => none

/-- A signed integer of `bits + 1` bits. -/
def decInt (bits : Nat) : Json → Option Int
  | .num n => if -(2 ^ bits : Nat) ≤ n ∧ n < (2 ^ bits : Nat) then some n else none
  | _ => none

/-- `"secs"`. -/
def secsName : Str := ['s', 'e', 'c', 's']

/-- `"nanos"`. -/
def nanosName : Str := ['n', 'a', 'n', 'o', 's']

/-- The checks of serde for a `Duration`, and `Duration::new`. -/
def mkDuration (secs nanos : Nat) : Option Val :=
  if secs + nanos / 1000000000 < u64Lim then some (.dur (secs + nanos / 1000000000) (nanos % 1000000000)) else none

/-- The entries of a duration: only the two names, each once. -/
def durEntries : Option Nat → Option Nat → List (Str × Json) → Option Val
  | some s, some n, [] => mkDuration s n
  | _, _, [] => none
  | s, n, (k, v) :: l =>
    if k = secsName then
      match s, decNat u64Lim v with
      | none, some x => durEntries (some x) n l
      | _, _ => none
    else if k = nanosName then
      match n, decNat u32Lim v with
      | none, some x => durEntries s (some x) l
      | _, _ => none
    else none

/-- `HashMap::insert` on the list of entries. -/
def mapInsert (l : List (Str × Bool)) (k : Str) (b : Bool) : List (Str × Bool) := l.filter (fun e => e.1 ≠ k) ++ [(k, b)]

/-- The entries of a map with boolean values. -/
def mapEntries (acc : List (Str × Bool)) : List (Str × Json) → Option (List (Str × Bool))
  | [] => some acc
  | (k, .bool b) :: l => mapEntries (mapInsert acc k b) l
  | _ :: _ => none

/-- A value of a type. -/
def decVal : Ty → Json → Option Val
  | .u32, j => (decNat u32Lim j).map .nat
  | .u64, j => (decNat u64Lim j).map .nat
  | .i32, j => (decInt 31 j).map .int
  | .i64, j => (decInt 63 j).map .int
  | .bool, .bool b => some (.bool b)
  | .str, .str s => some (.str s)
  | .dur, .obj l => durEntries none none l
  | .dur, .arr [a, b] =>
    match decNat u64Lim a, decNat u32Lim b with
    | some s, some n => mkDuration s n
    | _, _ => none
  | .map, .obj l => (mapEntries [] l).map .map
  | _, _ => none

/-- The setting with a name. -/
def Field.ofName (s : Str) : Option Field := Field.all.find? fun f => f.name = s

/-- The settings read so far. -/
abbrev Partial := Field → Option Val

/-- One more setting. -/
def Partial.set (st : Partial) (f : Field) (v : Val) : Partial := fun g => if g = f then some v else st g

/-- The loop over the entries of the file's object: unknown names are skipped, a name occurring twice is an error. -/
def readEntries (st : Partial) : List (Str × Json) → Option Partial
  | [] => some st
  | (k, j) :: l =>
    match Field.ofName k with
    | none => readEntries st l
    | some f =>
      match st f, decVal f.ty j with
      | none, some v => readEntries (st.set f v) l
      | _, _ => none

/-- The loop over an array: one value per setting. -/
def readSeq (st : Partial) : List Field → List Json → Option Partial
  | [], [] => some st
  | f :: fs, j :: js =>
    match decVal f.ty j with
    | some v => readSeq (st.set f v) fs js
    | none => none
  | _, _ => none

/-- All settings must have been read. -/
def finish (st : Partial) : Option Local :=
  if Field.all.all (fun f => (st f).isSome) then some (fun f => (st f).getD (.bool false)) else none

/-- `serde_json::from_str` for `Local`. -/
def decodeLocal : Json → Option Local
  | .obj l => (readEntries (fun _ => none) l).bind finish
  | .arr l => (readSeq (fun _ => none) Field.all l).bind finish
  | _ => none

/-- One setting replaced. -/
def Local.set (c : Local) (f : Field) (v : Val) : Local := fun g => if g = f then v else c g

/-- `ConfigError` (lines 57-65). -/
inductive ConfigError where
  | io
  | serialization
  deriving Repr, DecidableEq

/-- A file system: contents by path. -/
abbrev Fs := Str → Option Str

/-- `serde_json`: from text to values and back. -/
structure JsonLib where
  parse : Str → Option Json
  print : Json → Str

/-- `load` (lines 524-527). An error of `serde_json` becomes an I/O error by `?`. -/
def load (J : JsonLib) (content : Str) : Except ConfigError Local :=
  match (J.parse content).bind decodeLocal with
  | some c => .ok c
  | none => .error .io

/-- `net_address.is_empty()`. -/
def Local.listens (c : Local) : Bool := c .netAddress ≠ .str []

/-- `merge_from_file` (lines 509-522): the new value of `self`. The old value is replaced by `load`. -/
def mergeFromFile (J : JsonLib) (fs : Fs) (path : Str) (_self : Local) : Except ConfigError Local :=
  match fs path with
  | none => .error .io
  | some content =>
    match load J content with
    | .error e => .error e
    | .ok c =>
      if c.listens then
        .ok (((c.set .archival (.bool true)).set .enableLedgerService (.bool true)).set .enableBlockService (.bool true))
      else .ok c

/-- `load_from_file` (lines 490-503). -/
def loadFromFile (J : JsonLib) (fs : Fs) (path : Str) : Except ConfigError Local :=
  mergeFromFile J fs path (Local.default.set .version (.nat 0))

/-- `save_to_file` (lines 566-576), and so `save_to_disk` (lines 557-562) on a valid path: writes nothing. -/
def saveToFile (fs : Fs) (_path : Str) (_c : Local) : Except ConfigError Fs := .ok fs

/-! ## Phonebook -/

/-- The JSON of a `PhonebookBlackWhiteList` (lines 624-627, 662-666). -/
def phonebookJson (entries : List Str) : Json :=
  .obj [(['i', 'n', 'c', 'l', 'u', 'd', 'e'], .arr (entries.map .str))]

/-- `save_phonebook_to_disk` (lines 647-660): the file afterwards. -/
def savePhonebook (J : JsonLib) (fs : Fs) (path : Str) (entries : List Str) : Fs :=
  fun p => if p = path then some (J.print (phonebookJson entries)) else fs p

/-- `load_phonebook` (lines 631-644). `serde_json::from_str(&content)?;` as a statement is inferred to read `()`, which
accepts only `null`; the returned vector is the empty one. -/
def loadPhonebook (J : JsonLib) (fs : Fs) (path : Str) : Except ConfigError (List Str) :=
  match fs path with
  | none => .error .io
  | some content =>
    match J.parse content with
    | some .null => .ok []
    | _ => .error .io

/-! ## Bootstrap addresses -/

/-- `"<network>"`. -/
def placeholder : Str := ['<', 'n', 'e', 't', 'w', 'o', 'r', 'k', '>']

/-- `str::replace("<network>", network)`: leftmost occurrences, not overlapping. -/
def replaceNetwork (network : Str) (s : Str) : Str :=
  match s with
  | [] => []
  | c :: t =>
    if placeholder <+: c :: t then network ++ replaceNetwork network ((c :: t).drop placeholder.length)
    else c :: replaceNetwork network t
termination_by s.length
decreasing_by
  · simp [placeholder]; omega
  · simp

/-- `DEVNET` (line 28). -/
def devnet : Str := ['d', 'e', 'v', 'n', 'e', 't']

/-- `BETANET` (line 31). -/
def betanet : Str := ['b', 'e', 't', 'a', 'n', 'e', 't']

/-- `".algodev.network"`. -/
def algodev : Str := ['.', 'a', 'l', 'g', 'o', 'd', 'e', 'v', '.', 'n', 'e', 't', 'w', 'o', 'r', 'k']

/-- The default of `dns_bootstrap_id` (default.rs): `"<network>.algorand.network"`. -/
def defaultBootstrapId : Str :=
  placeholder ++ ['.', 'a', 'l', 'g', 'o', 'r', 'a', 'n', 'd', '.', 'n', 'e', 't', 'w', 'o', 'r', 'k']

/-- `dns_bootstrap` (lines 542-554) for a configured identifier. -/
def dnsBootstrap (bootstrapId network : Str) : Str :=
  if bootstrapId = defaultBootstrapId ∧ network = devnet then devnet ++ algodev
  else if bootstrapId = defaultBootstrapId ∧ network = betanet then betanet ++ algodev
  else replaceNetwork network bootstrapId

/-- `dns_bootsrap_array` (lines 530-539). -/
def dnsBootstrapArray (bootstrapId network : Str) : List Str :=
  (splitOn ';' (dnsBootstrap bootstrapId network)).filter fun e => e ≠ []

/-! ## Flags -/

/-- `dnssec_srv_enforced` (lines 578-580). -/
def dnssecSrvEnforced (flags : Nat) : Bool := flags &&& 1 ≠ 0

/-- `dnssec_relay_addr_enforced` (lines 583-585). -/
def dnssecRelayAddrEnforced (flags : Nat) : Bool := flags &&& 2 ≠ 0

/-- `dnssec_telemetry_enforced` (lines 588-590). -/
def dnssecTelemetryEnforced (flags : Nat) : Bool := flags &&& 4 ≠ 0

/-- `catchup_verify_certificate` (lines 594-596). -/
def catchupVerifyCertificate (mode : Nat) : Bool := mode &&& 1 = 0

/-- `catchup_verify_payset_hash` (lines 599-601). -/
def catchupVerifyPaysetHash (mode : Nat) : Bool := mode &&& 2 = 0

/-- `catchup_verify_transaction_signatures` (lines 605-607). -/
def catchupVerifyTransactionSignatures (mode : Nat) : Bool := mode &&& 4 ≠ 0

/-- `catchup_verify_apply_data` (lines 610-612). -/
def catchupVerifyApplyData (mode : Nat) : Bool := mode &&& 8 ≠ 0

end Verif.Config
