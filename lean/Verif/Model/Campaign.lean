import Verif.Model.Text
import Verif.Model.Http
import Verif.Model.Reports

/-!
# Campaigns (campaign/campaign.cc, include/libaktualizr/campaign.h)

The list of campaigns the server offers, and the answers of the user to them.
-/

namespace Aktualizr
namespace Camp

/-- `Campaign` (campaign.h:46-63). -/
structure Campaign where
  id : String := ""
  name : String := ""
  size : Int := 0
  autoAccept : Bool := false
  description : String := ""
  install : Int := 0
  prepare : Int := 0
  deriving DecidableEq, Repr

/-- `CampaignParseError` (campaign.h:17-20): whatever is thrown inside the constructor leaves it as
this (campaign.cc:48-53). -/
def parseError : Err := .std "Could not parse Campaign metadata"

/-- `Json::Value::get` with a default (campaign.cc:23-24). -/
def getOr (j : Json) (k : String) (d : Json) : Except Err Json := do
  if ← j.isMember k then j.get k else return d

/-- The body of the loop over `metadata` (campaign.cc:27-46). -/
def metadataStep (c : Campaign) (o : Json) : Except Err Campaign :=
  if !o.isObject then .ok c
  else do
    let type ← o.get "type"
    if type.isStr "DESCRIPTION" then do
      throwIf (c.description ≠ "") parseError
      return { c with description := ← (← o.get "value").asString }
    else if type.isStr "ESTIMATED_INSTALLATION_DURATION" then do
      throwIf (c.install ≠ 0) parseError
      return { c with install := ← stoi (← (← o.get "value").asString).toList }
    else if type.isStr "ESTIMATED_PREPARATION_DURATION" then do
      throwIf (c.prepare ≠ 0) parseError
      return { c with prepare := ← stoi (← (← o.get "value").asString).toList }
    else return c

/-- The loop (campaign.cc:27-46). -/
def metadataLoop : List Json → Campaign → Except Err Campaign
  | [], c => .ok c
  | o :: os, c => do metadataLoop os (← metadataStep c o)

/-- The `try` block of the constructor (campaign.cc:8-47). -/
def construct (j : Json) : Except Err Campaign := do
  throwIf (!j.isObject) parseError
  let id ← (← j.get "id").asString
  throwIf (id == "") parseError
  let name ← (← j.get "name").asString
  throwIf (name == "") parseError
  let size ← (← getOr j "size" (.int 0)).asInt64
  let auto ← (← getOr j "autoAccept" (.bool false)).asBool
  metadataLoop (← j.get "metadata").elems { id := id, name := name, size := size, autoAccept := auto }

/-- `Campaign::Campaign(const Json::Value &)` (campaign.cc:7-54). -/
def ofJson (j : Json) : Except Err Campaign :=
  match construct j with
  | .ok c => .ok c
  | .error _ => .error parseError

/-- The loop of `campaignsFromJson` (campaign.cc:88-94). -/
def parseEach : List Json → List Campaign
  | [] => []
  | j :: js =>
    match ofJson j with
    | .ok c => c :: parseEach js
    | .error _ => parseEach js

/-- `Campaign::campaignsFromJson` (campaign.cc:72-96). -/
def campaignsFromJson (j : Json) : List Campaign :=
  match j with
  | .obj kvs =>
    match (kvs.lookup "campaigns").getD .null with
    | .arr xs => parseEach xs
    | _ => []
  | _ => []

/-- `Campaign::getJson` (campaign.cc:56-70). `Json::UInt` has 32 bits. -/
def toJson (c : Campaign) : Json :=
  .obj [("autoAccept", .bool c.autoAccept), ("id", .str c.id),
    ("metadata", .arr
      [.obj [("type", .str "DESCRIPTION"), ("value", .str c.description)],
       .obj [("type", .str "ESTIMATED_INSTALLATION_DURATION"), ("value", .str (String.ofList (decimal c.install)))],
       .obj [("type", .str "ESTIMATED_PREPARATION_DURATION"), ("value", .str (String.ofList (decimal c.prepare)))]]),
    ("name", .str c.name), ("size", .int (c.size % 4294967296))]

/-- `Campaign::JsonFromCampaigns` (campaign.cc:98-107); without a campaign the value stays `null`. -/
def jsonFromCampaigns (cs : List Campaign) : Json :=
  if cs = [] then .null else .obj [("campaigns", .arr (cs.map toJson))]

/-- `kMaxCampaignsMetaSize` (campaign.h:14). -/
def maxSize : Int := 1048576

/-- `Campaign::fetchAvailableCampaigns` (campaign.cc:109-121); `parse` is `Utils::parseJSON`. `none`
when the process ends first. -/
def fetchAvailableCampaigns (parse : List UInt8 → Json) (ts : List Http.Transfer) : Option (List Campaign) :=
  (Http.get maxSize ts).map fun r => if !r.isOk then [] else campaignsFromJson (parse r.body)

/-- `Cmd` (campaign.h:25-29). -/
inductive Cmd where
  | accept | decline | postpone
  deriving DecidableEq, Repr

/-- `cmdFromName` (campaign.h:32-36). -/
def cmdFromName (name : String) : Except Err Cmd :=
  if name = "campaign_accept" then .ok .accept
  else if name = "campaign_decline" then .ok .decline
  else if name = "campaign_postpone" then .ok .postpone
  else .error (.std "map::at")

/-- Events of the API about campaigns (events.h:160-210). -/
inductive Event where
  | checked (cs : List Campaign)
  | accepted | declined | postponed
  deriving DecidableEq, Repr

/-- `Campaign*Report` (reportqueue.cc:88-99) as `ReportEvent::toJson` makes it (reportqueue.cc:74-86);
`uuid` and `time` are those of its creation (reportqueue.h:24). -/
def report (uuid time : String) (type : String) (campaign : String) : Json :=
  .obj [("deviceTime", .str time), ("event", .obj [("campaignId", .str campaign)]),
    ("eventType", .obj [("id", .str type), ("version", .int 0)]), ("id", .str uuid)]

/-- The process with its events and its report queue. -/
structure St where
  events : List Event := []
  queue : Reports.World := {}

/-- `campaignCheck` (sotauptaneclient.cc:1073-1085) with what was fetched. -/
def campaignCheck (parse : List UInt8 → Json) (ts : List Http.Transfer) (s : St) : Option (List Campaign × St) :=
  (fetchAvailableCampaigns parse ts).map fun cs => (cs, { s with events := s.events ++ [.checked cs] })

/-- What `campaignAccept`, `campaignDecline` and `campaignPostpone` differ in
(sotauptaneclient.cc:1087-1100). -/
def Cmd.event : Cmd → Event
  | .accept => .accepted
  | .decline => .declined
  | .postpone => .postponed

/-- The type of the report (reportqueue.cc:88-97). -/
def Cmd.reportType : Cmd → String
  | .accept => "campaign_accepted"
  | .decline => "campaign_declined"
  | .postpone => "campaign_postponed"

/-- `Aktualizr::CampaignControl` (aktualizr.cc:123-141) when its turn has come; `canon` writes the
report into the database. -/
def campaignControl (canon : Json → String) (uuid time : String) (id : String) (cmd : Cmd) (s : St) : St :=
  { s with
    events := s.events ++ [cmd.event]
    queue := Reports.Op.step (fun _ => true) s.queue (.enqueue (canon (report uuid time cmd.reportType id))) }

end Camp
end Aktualizr
