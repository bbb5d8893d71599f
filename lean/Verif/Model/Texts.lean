import Verif.Base.Str
/-
What statuses, services, types and errors are printed as: cip_definitions.go `CIPStatus.String`, services.go
`CIPService.String`, types.go `CIPType.String`, errors.go `CIPError.Error`, getattr.go `CIPStatusError.Error`, and the
messages of the calls that report a status.
-/
namespace Gologix.Texts

/-- A digit of `%X` (`up`) or `%x`. -/
def hexDigit (up : Bool) (n : Nat) : Byte := BitVec.ofNat 8 (if n < 10 then 48 + n else (if up then 55 else 87) + n)

/-- `%X` and `%x` of a natural number; the first argument is only there for structural recursion. -/
def hexAux (up : Bool) : Nat → Nat → Str
  | 0, _ => []
  | f + 1, n => if n < 16 then [hexDigit up n] else hexAux up f (n / 16) ++ [hexDigit up (n % 16)]

def hex (up : Bool) (n : Nat) : Str := hexAux up (n + 1) n

/-- `%2x`: spaces in front up to two characters. -/
def hexPad (n : Nat) : Str := if n < 16 then 0x20#8 :: hex false n else hex false n

/-- `%X` of a string, or of a value with a `String` method, whose text `fmt` then takes. -/
def hexOfText (s : Str) : Str := s.flatMap fun b => [hexDigit true (b.toNat / 16), hexDigit true (b.toNat % 16)]

/-- The cases of cip_definitions.go:438-528. -/
def statusNames : List (Byte × String) :=
  [(0x00#8, "OK"),
   (0x01#8, "Connection failure - A connection related service failed along the connection path."),
   (0x02#8, "Resource unavailable - Resources needed for the object to perform the requested service were unavailable"),
   (0x03#8, "InvalidParameterValue"),
   (0x04#8, "Path segment error - The path segment identifier or the segment syntax was not understood by the processing node."),
   (0x05#8, "Path destination unknown - The path is referencing an object class, instance or structure element that is not known or is not contained in the processing node. Path processing shall stop when a path destination unknown error is encountered"),
   (0x06#8, "PartialTransfer"),
   (0x07#8, "ConnectionLost"),
   (0x08#8, "Service not supported - The requested service was not implemented or was not defined for this Object Class/Instance"),
   (0x09#8, "Invalid attribute value - Invalid attribute data detected"),
   (0x0A#8, "AttributeListError"),
   (0x0B#8, "AlreadyInRequestedMode"),
   (0x0C#8, "ObjectStateConflict"),
   (0x0D#8, "ObjectAlreadyExists"),
   (0x0E#8, "Attribute not settable - A request to modify a non-modifiable attribute was received."),
   (0x0F#8, "PrivilegeViolation"),
   (0x10#8, "DeviceStateConflict"),
   (0x11#8, "ReplyDataTooLarge"),
   (0x12#8, "FragmentationOfMessage"),
   (0x13#8, "Not enough data - The service did not supply enough data to perform the specified operation"),
   (0x14#8, "Attribute not supported - The attribute specified in the request is not supported"),
   (0x15#8, "Too much data - The service supplied more data than was expected"),
   (0x16#8, "Object does not exist - The object specified does not exist in the device."),
   (0x17#8, "ServiceFragmentation"),
   (0x18#8, "NoStoredAttributeData"),
   (0x19#8, "StoreOperationFailure"),
   (0x1A#8, "RoutingFailureReqTooLarge"),
   (0x1B#8, "RoutingFailureRespTooLarge"),
   (0x1C#8, "MissingAttributeListEntry"),
   (0x1D#8, "InvalidAttributeValueList"),
   (0x1E#8, "EmbeddedServiceError"),
   (0x1F#8, "VendorSpecificError"),
   (0x20#8, "Invalid parameter - A parameter associated with the request was invalid. This code is used when a parameter does not meet the requirements of this specification and/or the requirements defined in an Application Object Specification"),
   (0x21#8, "WriteOnceValueOrMedium"),
   (0x22#8, "InvalidReplyReceived"),
   (0x23#8, "BufferOverflow"),
   (0x24#8, "MessageFormatError"),
   (0x25#8, "KeyFailure"),
   (0x26#8, "Path size invalid - The size of the path which was sent with the Service Request is either not large enough to allow the Request to be routed to an object or too much routing data was included"),
   (0x27#8, "UnexpectedAttribInList"),
   (0x28#8, "InvalidMemberID"),
   (0x29#8, "MemberNotSettable"),
   (0x2A#8, "Group2OnlyServerGeneralFailure"),
   (0x2B#8, "UnknownModbusError"),
   (0x2C#8, "AttributeNotGettable")]

/-- cip_definitions.go:437-535 `CIPStatus.String`. -/
def statusText (s : Byte) : Str :=
  match statusNames.lookup s with
  | some t => str t
  | none =>
    if s.toNat > 0x2C ∧ s.toNat < 0xD0 then
      str "Unknown Error: 0x" ++ hex true s.toNat ++ str " (reserved by CIP for future extensions)"
    else str "Unknown CIPStatus: 0x" ++ hex true s.toNat ++ str " (reserved for object class and service errors)"

/-- The cases of services.go:28-95. -/
def serviceNames : List (Byte × String) :=
  [(0x01#8, "cipService_GetAttributeAll"),
   (0x02#8, "cipService_SetAttributeAll"),
   (0x03#8, "cipService_GetAttributeList"),
   (0x04#8, "cipService_SetAttributeList"),
   (0x05#8, "cipService_Reset"),
   (0x06#8, "cipService_Start"),
   (0x07#8, "cipService_Stop"),
   (0x08#8, "cipService_Create"),
   (0x09#8, "cipService_Delete"),
   (0x0A#8, "cipService_MultipleService"),
   (0x0D#8, "cipService_ApplyAttributes"),
   (0x0E#8, "cipService_GetAttributeSingle"),
   (0x10#8, "cipService_SetAttributeSingle"),
   (0x11#8, "cipService_FindNextObjectInstance"),
   (0x15#8, "cipService_Restore"),
   (0x16#8, "cipService_Save"),
   (0x17#8, "cipService_NOP"),
   (0x18#8, "cipService_GetMember"),
   (0x19#8, "cipService_SetMember"),
   (0x1A#8, "cipService_InsertMember"),
   (0x1B#8, "cipService_RemoveMember"),
   (0x1C#8, "cipService_GroupSync"),
   (0x1D#8, "cipService_GetMemberList"),
   (0x4C#8, "cipService_Read"),
   (0x4D#8, "cipService_Write"),
   (0x4E#8, "cipService_ForwardClose"),
   (0x5A#8, "cipService_GetConnectionOwner"),
   (0x54#8, "cipService_ForwardOpen"),
   (0x5B#8, "cipService_LargeForwardOpen"),
   (0x52#8, "cipService_FragRead"),
   (0x53#8, "cipService_FragWrite"),
   (0x55#8, "cipService_GetInstanceAttributeList"),
   (0x57#8, "cipService_GetConnectionData")]

/-- services.go:27-98 `CIPService.String`. -/
def serviceText (s : Byte) : Str :=
  match serviceNames.lookup s with
  | some t => str t
  | none => str "unknown service " ++ dec s.toNat

/-- The cases of types.go:176-211. -/
def typeNames : List (Byte × String) :=
  [(0x00#8, "0x00 - Unknown"),
   (0xA0#8, "0xA0 - Struct"),
   (0xC1#8, "0xC1 - BOOL"),
   (0xD1#8, "0xD1 - BYTE"),
   (0xC2#8, "0xC2 - SINT"),
   (0xC3#8, "0xC3 - INT"),
   (0xC4#8, "0xC4 - DINT"),
   (0xC5#8, "0xC5 - LINT"),
   (0xC6#8, "0xC6 - USINT"),
   (0xC7#8, "0xC7 - UINT"),
   (0xC8#8, "0xC8 - UDINT"),
   (0xD4#8, "0xC9 - LWORD"),
   (0xCA#8, "0xCA - REAL"),
   (0xCB#8, "0xCB - LREAL"),
   (0xD2#8, "0xD2 - WORD"),
   (0xD3#8, "0xD3 - DWORD"),
   (0xFF#8, "0xFF - (gologix specific) String")]

/-- types.go:175-214 `CIPType.String`. -/
def typeText (c : Byte) : Str :=
  match typeNames.lookup c with
  | some t => str t
  | none => str "0x" ++ hexPad c.toNat ++ str " - Unknown"

/-- The cases of errors.go:16-67 by code. -/
def errorNames : List (Byte × String) :=
  [(0x00#8, " no error?  This shouldn't happen :/"),
   (0x01#8, " connection failure"),
   (0x02#8, " resource unavailable"),
   (0x03#8, " bad parameter, size > 12 or size greater than size of element."),
   (0x04#8, " a syntax error was detected decoding the request path"),
   (0x05#8, " request path destination unknown: probably instance number is not present"),
   (0x06#8, " insufficient packet space: not enough room in the response buffer for all the data"),
   (0x07#8, " connection lost"),
   (0x08#8, " service is not supported for the object/instance"),
   (0x09#8, " could not write attribute data - possibly in valid or wrong type"),
   (0x0A#8, " attribute list error, generally attribute not supported. the status of the unsupported attribute is 0x14"),
   (0x13#8, " insufficient Request Data: Data too short for expected param"),
   (0x16#8, " object does not exist"),
   (0x1A#8, " routing failure: request too large"),
   (0x1B#8, " routing failure: response too large"),
   (0x1C#8, " attribute list shortage: the list of attribute numbers was too few for the number of attributes parameter"),
   (0x26#8, " the request path size received was shorter or longer than expected.")]

/-- The cases of errors.go:39-44 and 59-66 by code and extended code. -/
def errorNamesExt : List ((Byte × BitVec 16) × String) :=
  [((0x10#8, 0x2101#16), " device state conflict: keyswitch position: the requestor is changing force information in HARD RUN mode"),
   ((0x10#8, 0x2802#16), " device state conflict: safety status: the controller is in a state in which safety memory cannot be modified"),
   ((0xFF#8, 0x2104#16), "General Error: Offset is beyond end of the requested tag."),
   ((0xFF#8, 0x2105#16), "General Error: Number of Elements or Byte Offset is beyond the end of the requested tag."),
   ((0xFF#8, 0x2107#16), "General Error: Tag type used n request does not match the target tag's data type.")]

/-- errors.go:14-70 `CIPError.Error`. -/
def errorText (code : Byte) (ext : BitVec 16) : Str :=
  let ec := str "error " ++ hex true code.toNat ++ hex true ext.toNat ++ str ": "
  match errorNames.lookup code with
  | some t => ec ++ str t
  | none => match errorNamesExt.lookup (code, ext) with
    | some t => ec ++ str t
    | none => ec ++ str "Unknown Error"

/-- getattr.go:325-327 `CIPStatusError.Error`: `%X` of `e.Expected` takes its `String`. -/
def statusErrorText (expected status : Byte) : Str :=
  str "CIP status error: expected 0x" ++ hexOfText (statusText expected) ++ str " (" ++ statusText expected ++
    str "), got 0x" ++ hex true status.toNat ++ str " (" ++ statusText status ++ str ")"

/-- getattr.go:482-485: the error for a status that is not 0; `CIPStatus(status)` keeps 8 bits. -/
def genericFailed (status : BitVec 16) : Option Str :=
  if status = 0 then none else some (statusErrorText 0 (status.setWidth 8))

/-- getattr.go:475-477: the error for the reply to another service; `%X` of a `CIPService` takes its `String`. -/
def serviceFailed (asked got : Byte) : Option Str :=
  if got &&& 0x7F#8 ≠ asked then
    some (str "expected service response 0x" ++ hexOfText (serviceText asked) ++ str " but got 0x" ++
      hexOfText (serviceText (got &&& 0x7F#8)))
  else none

/-- getattr.go:305-307: the error for the status of a reply with a list of attributes. -/
def attributesFailed (status : BitVec 16) : Option Str :=
  if status ≠ 0 then
    some (str "response header has status 0x" ++ hex true status.toNat ++ str " (" ++ statusText (status.setWidth 8) ++ str ")")
  else none

/-- read.go:866-868: the error for the status of the frame. -/
def listFailed (status : BitVec 32) : Option Str :=
  if status ≠ 0 then some (str "problem reading tags. Status " ++ statusText (status.setWidth 8)) else none

/-- read.go:904-906: the error for the status of a reply to several requests. -/
def multiFailed (status : BitVec 16) : Option Str :=
  if status ≠ 0 then some (str "service returned status " ++ statusText (status.setWidth 8)) else none

/-- read.go:479-481: the error for the status of a single read; a partial transfer (6) is handled before. -/
def readFailed (tag : Str) (status : Byte) : Option Str :=
  if status ≠ 0 ∧ status ≠ 6 then some (str "read of " ++ tag ++ str " returned status " ++ statusText status) else none

end Gologix.Texts
