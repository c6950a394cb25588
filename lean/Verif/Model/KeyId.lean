import Verif.Model.Basic

/-!
# `src/wh_keyid.c` and the macros of `wolfhsm/wh_keyid.h`
-/

namespace WolfHsm.KeyId

/-- `WH_KEYTYPE_*`, wolfhsm/wh_keyid.h:113-118. -/
def typeNvm : UInt16 := 0
def typeCrypto : UInt16 := 1
def typeShe : UInt16 := 2
def typeCounter : UInt16 := 3
def typeWrapped : UInt16 := 4
def typeHw : UInt16 := 5

/-- `WH_KEYUSER_GLOBAL`, wolfhsm/wh_keyid.h:110. -/
def userGlobal : UInt16 := 0

/-- Client-facing flags, wolfhsm/wh_keyid.h:77-87. -/
def globalFlag : UInt16 := 0x0100
def wrappedFlag : UInt16 := 0x0200
def hwFlag : UInt16 := 0x0400

/-- `WH_CLIENT_ID_MAX`, wolfhsm/wh_keyid.h:58. -/
def clientIdMax : UInt16 := (0x0F00 : UInt16) >>> 8

/-- `WH_MAKE_KEYID`, wolfhsm/wh_keyid.h:95-98.  The C shifts are done in `int`;
bits above 15 are masked off, so 16-bit shifts are exact. -/
def make (type user id : UInt16) : UInt16 :=
  ((type <<< 12) &&& (0xF000 : UInt16)) ||| ((user <<< 8) &&& (0x0F00 : UInt16)) ||| (id &&& 0x00FF)

/-- `WH_KEYID_TYPE`, wolfhsm/wh_keyid.h:99. -/
def typeOf (k : UInt16) : UInt16 := (k &&& 0xF000) >>> 12
/-- `WH_KEYID_USER`, wolfhsm/wh_keyid.h:100. -/
def userOf (k : UInt16) : UInt16 := (k &&& 0x0F00) >>> 8
/-- `WH_KEYID_ID`, wolfhsm/wh_keyid.h:101. -/
def idOf (k : UInt16) : UInt16 := k &&& 0x00FF

/-- `WH_KEYID_ISERASED`, wolfhsm/wh_keyid.h:103. -/
def isErased (k : UInt16) : Bool := idOf k == 0
/-- `WH_KEYID_IS_UNASSIGNED`, wolfhsm/wh_keyid.h:125-126. -/
def isUnassigned (k : UInt16) : Bool := isErased k && typeOf k != typeShe

/-- Compile-time options that change the translation. -/
structure Cfg where
  /-- `WOLFHSM_CFG_GLOBAL_KEYS` -/
  globalKeys : Bool
  /-- `WOLFHSM_CFG_KEYWRAP` -/
  keywrap : Bool
  /-- `WOLFHSM_CFG_HWKEYSTORE` -/
  hwKeystore : Bool
deriving DecidableEq, Repr

/-- `wh_KeyId_TranslateFromClient`, src/wh_keyid.c:27-56. -/
def fromClient (cfg : Cfg) (type clientId reqId : UInt16) : UInt16 :=
  let user := if cfg.globalKeys && (reqId &&& globalFlag) != 0 then userGlobal else clientId
  let type := if cfg.keywrap && (reqId &&& wrappedFlag) != 0 then typeWrapped else type
  let type := if cfg.hwKeystore && (reqId &&& hwFlag) != 0 then typeHw else type
  make type user (reqId &&& 0x00FF)

/-- `wh_KeyId_TranslateToClient`, src/wh_keyid.c:58-84. -/
def toClient (cfg : Cfg) (serverId : UInt16) : UInt16 :=
  let c := idOf serverId
  let c := if cfg.globalKeys && userOf serverId == userGlobal then c ||| globalFlag else c
  let c := if cfg.keywrap && typeOf serverId == typeWrapped then c ||| wrappedFlag else c
  if cfg.hwKeystore && typeOf serverId == typeHw then c ||| hwFlag else c

end WolfHsm.KeyId
