import Verif.Front.Text
/-!
# The list of changes in the information drawer

Model of `components/Changelog/index.tsx`: two tabs, one with the commits of the current version, which
are asked for one by one, and one with the latest commits of the repository, which are asked for in one
request. The answers of GitHub come in any order, at any time, and may be errors.

Left out: the URL and the headers of the requests, the fields of a commit other than those shown,
how the lists are drawn. A request is taken to be answered at most once. React draws between two events
(an answer or a click), so that a click sees the state after the event before; the callbacks of a
promise run before the next event.
-/
namespace Mpp.Front

/-- What is shown of a commit (`GithubCommit.ts`; `Changelog/index.tsx:107-108`, `134-135`). -/
structure Commit where
  /-- `commit.commit.message` -/
  message : String
  /-- `commit.commit.author.name` -/
  author : String
deriving DecidableEq

/-- A request for a commit of the current version that is not answered yet. -/
structure Asked where
  /-- the call of `getReleased` that made it -/
  round : Nat
  /-- `item.sha` -/
  sha : String
deriving DecidableEq

/-- The state of the component (`Changelog/index.tsx:29-37`) and the requests under way. -/
structure Changelog where
  loadingReleased : Bool
  loadingCommits : Bool
  released : List Commit
  commits : List Commit
  releasedError : Option String
  commitsError : Option String
  /-- the requests of `getReleased` (line 45) that are not answered yet -/
  asked : List Asked
  /-- the calls of `getReleased` of which a request has failed: their `Promise.all` is settled -/
  failed : List Nat
  /-- the number of calls of `getReleased` that have made requests -/
  rounds : Nat
  /-- the number of requests of `getCommits` that are not answered yet -/
  history : Nat
deriving DecidableEq

/-- What can happen. -/
inductive ChangelogEvent
  /-- a click on the tab of the current version (`onTabClick`, line 73); it does not matter whether
  the tab is the active one -/
  | clickReleased
  /-- a click on the tab of the commits (line 76) -/
  | clickCommits
  /-- the `k`-th of the unanswered requests for a commit of the version is answered -/
  | gotReleased (k : Nat)
  /-- it fails -/
  | lostReleased (k : Nat) (message : String)
  /-- one of the requests for the commits is answered -/
  | gotCommits (cs : List Commit)
  /-- it fails -/
  | lostCommits (message : String)
deriving DecidableEq

/-- `getReleased` (lines 39-52), where `items` are the shas of `constants.currentVersion.items`. With no
items, `Promise.all` is settled at once. -/
def Changelog.getReleased (items : List String) (s : Changelog) : Changelog :=
  if s.released.length > 0 then s
  else { s with
    loadingReleased := !items.isEmpty
    released := []
    asked := s.asked ++ items.map fun i => ⟨s.rounds, i⟩
    rounds := s.rounds + 1 }

/-- `getCommits` (lines 54-65). -/
def Changelog.getCommits (s : Changelog) : Changelog :=
  if s.commits.length > 0 then s
  else { s with
    loadingCommits := true
    released := []
    commitsError := none
    history := s.history + 1 }

/-- A request for a commit of the version is answered with `c` (lines 45-46). If it was the last of its
call, `Promise.all` is settled (line 51). -/
def Changelog.arrive (k : Nat) (a : Asked) (c : Commit) (s : Changelog) : Changelog :=
  let asked := s.asked.eraseIdx k
  { s with
    released := s.released ++ [c]
    asked := asked
    loadingReleased := s.loadingReleased && (s.failed.contains a.round || asked.any (·.round == a.round)) }

/-- A request for a commit of the version fails (lines 21-23). If it is the first of its call that does,
`Promise.all` is settled (lines 50-51). -/
def Changelog.lose (k : Nat) (a : Asked) (message : String) (s : Changelog) : Changelog :=
  if s.failed.contains a.round then { s with asked := s.asked.eraseIdx k }
  else { s with
    asked := s.asked.eraseIdx k
    failed := a.round :: s.failed
    releasedError := some message
    loadingReleased := false }

/-- One event, when `github` has these commits; `none` when there is no such request. -/
def ChangelogEvent.step (items : List String) (github : String → Commit) (e : ChangelogEvent)
    (s : Changelog) : Option Changelog :=
  match e with
  | .clickReleased => some (s.getReleased items)
  | .clickCommits => some s.getCommits
  | .gotReleased k => (s.asked[k]?).map fun a => s.arrive k a (github a.sha)
  | .lostReleased k m => (s.asked[k]?).map fun a => s.lose k a m
  | .gotCommits cs =>
    if s.history = 0 then none
    else some { s with history := s.history - 1, commits := cs, loadingCommits := false }
  | .lostCommits m =>
    if s.history = 0 then none
    else some { s with history := s.history - 1, commitsError := some m, loadingCommits := false }

/-- The component is drawn for the first time: the initial state, then `getReleased` (lines 29-37,
67-70). -/
def Changelog.start (items : List String) : Changelog :=
  Changelog.getReleased items ⟨false, false, [], [], none, none, [], [], 0, 0⟩

def changelogSteps (items : List String) (github : String → Commit) :
    List ChangelogEvent → Changelog → Option Changelog
  | [], s => some s
  | e :: es, s => (e.step items github s).bind (changelogSteps items github es)

/-- The shas of `constants.currentVersion.items` (`Changelog/constants.json:6-28`). -/
def currentVersion : List String :=
  ["af500534a8e65fa4bc15f2661ddfe8ede0a02041", "2013ec2ab46ae82f310ebce79113c56b9a8b3993",
   "fcb6c76075c0683f2144036fa4abaddcaaa4b872", "0a91b4aca03dfb356b8a841e9e882bfe87a142c6",
   "f6295429eb74eb451383cfbc8f540add1963389c", "ec68c733eeb98b4f8462040cf84e6e6d560cee79",
   "468c47b7bdc7887df81470a56fdc381030ee5933"]

end Mpp.Front
