
Smaller observations that are visible in the models:

* `NewMessenger` registers the messenger before its owner can call `SetHandler`; `setMessenger` replaces the read channel of the
  type, so that messages queued before are no longer seen by `Read`.
* `sessionIDGetter.Get` keeps its lock while the clock stands still (`C43_frozen`), and uses a `mathrand.Rand` outside of it.
* A key exchange message with the wrong answers mode closes a session that has no configured remote identity, although
  nothing in it was verified (`C41_unverified`).
* The established payload size 24 makes `WriteMessageAsync` of a long message loop for ever (`C20_hangs`).
* `AcquireReadItem(…, isOneTimeUse)` does not store its argument, so one-time items go to the pool as well.
* `saveKeyToPemFile` does not close the file.
