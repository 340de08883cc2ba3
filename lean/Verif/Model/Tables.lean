import Verif.Model.Prim
/-!
# Stock tables: src/universe.rs, src/vanilladoom.rs

GENERATED by tools/tables.py from the source text; do not edit.
-/

namespace Idc

/-- src/universe.rs:11-26 `ThingCategory`. -/
inductive ThingCategory where
  | PlayerStart
  | Monster
  | Ammo
  | Weapon
  | HealthArmor
  | Powerup
  | Key
  | Decoration
  | Miscellaneous
  deriving DecidableEq, Repr

/-- src/universe.rs:28-56 `ActorType`.  Simplification: sounds, flags, reaction time, pain chance and
speed, damage, mass are left out (no code reads them). -/
structure ActorType where
  zdoom_actor_class : String
  category : ThingCategory
  doomednum : Option UInt32
  spawnhealth : Nat
  radius : Nat
  height : Nat
  deriving DecidableEq, Repr

/-- src/universe.rs:71-85 `DOOM1_FLATS`. -/
def doom1Flats : List String := [
  "FLOOR0_1", "FLOOR0_3", "FLOOR0_6", "FLOOR1_1", "FLOOR1_7", "FLOOR3_3", "FLOOR4_1", "FLOOR4_5",
  "FLOOR4_6", "FLOOR4_8", "FLOOR5_1", "FLOOR5_2", "FLOOR5_3", "FLOOR5_4", "STEP1", "STEP2",
  "FLOOR6_1", "FLOOR6_2", "TLITE6_1", "TLITE6_4", "TLITE6_5", "TLITE6_6", "FLOOR7_1", "FLOOR7_2",
  "MFLR8_1", "DEM1_1", "DEM1_2", "DEM1_3", "DEM1_4", "CEIL3_1", "CEIL3_2", "CEIL3_5", "CEIL4_2",
  "CEIL4_3", "CEIL5_1", "CEIL5_2", "FLAT1", "FLAT2", "FLAT5", "FLAT10", "FLAT14", "FLAT18",
  "FLAT20", "FLAT22", "FLAT23", "FLAT5_4", "FLAT5_5", "CONS1_1", "CONS1_5", "CONS1_7", "NUKAGE1",
  "NUKAGE2", "NUKAGE3", "F_SKY1", "SFLR6_1", "SFLR6_4", "SFLR7_1", "SFLR7_4", "FLOOR0_2",
  "FLOOR0_5", "FLOOR0_7", "FLOOR1_6", "GATE1", "GATE2", "GATE3", "GATE4", "FWATER1", "FWATER2",
  "FWATER3", "FWATER4", "LAVA1", "LAVA2", "LAVA3", "LAVA4", "DEM1_5", "DEM1_6", "MFLR8_2",
  "MFLR8_3", "MFLR8_4", "CEIL1_1", "CEIL1_2", "CEIL1_3", "CEIL3_3", "CEIL3_4", "CEIL3_6", "CEIL4_1",
  "BLOOD1", "BLOOD2", "BLOOD3", "FLAT1_1", "FLAT1_2", "FLAT1_3", "FLAT5_1", "FLAT5_2", "FLAT5_3",
  "FLAT5_6", "FLAT5_7", "FLAT5_8", "CRATOP1", "CRATOP2", "FLAT3", "FLAT4", "FLAT8", "FLAT9",
  "FLAT17", "FLAT19", "COMP01"]

/-- src/universe.rs:87-104 `DOOM1_TEXTURES`. -/
def doom1Textures : List String := [
  "AASTINKY", "BIGDOOR1", "BIGDOOR2", "BIGDOOR4", "BRNBIGC", "BRNBIGL", "BRNBIGR", "BRNPOIS",
  "BRNPOIS2", "BRNSMAL1", "BRNSMAL2", "BRNSMALC", "BRNSMALL", "BRNSMALR", "BROWN1", "BROWN144",
  "BROWN96", "BROWNGRN", "BROWNHUG", "BROWNPIP", "COMP2", "COMPSPAN", "COMPSTA1", "COMPSTA2",
  "COMPTALL", "COMPTILE", "COMPUTE1", "COMPUTE2", "COMPUTE3", "DOOR1", "DOOR3", "DOORBLU",
  "DOORRED", "DOORSTOP", "DOORTRAK", "DOORYEL", "EXITDOOR", "EXITSIGN", "GRAY4", "GRAY5", "GRAY7",
  "GRAYTALL", "LITE2", "LITE3", "LITE4", "LITE5", "LITEBLU1", "LITEBLU2", "LITEBLU3", "LITEBLU4",
  "METAL1", "NUKE24", "NUKEDGE1", "NUKESLAD", "PIPE2", "PLANET1", "PLAT1", "REDWALL1", "SHAWN2",
  "SKY1", "SLADPOIS", "SLADRIP1", "SLADRIP2", "SLADRIP3", "SLADWALL", "STARG1", "STARG3", "STARGR1",
  "STARTAN1", "STARTAN2", "STARTAN3", "STEP1", "STEP2", "STEP3", "STEP4", "STEP5", "STEP6", "STONE",
  "STONE2", "STONE3", "STONPOIS", "SUPPORT2", "SW1BRCOM", "SW1BRN1", "SW1BRN2", "SW1BRNGN",
  "SW1BROWN", "SW1COMM", "SW1COMP", "SW1DIRT", "SW1EXIT", "SW1GRAY", "SW1GRAY1", "SW1METAL",
  "SW1PIPE", "SW1SLAD", "SW1STARG", "SW1STON1", "SW1STON2", "SW1STONE", "SW1STRTN", "SW2BRCOM",
  "SW2BRN1", "SW2BRN2", "SW2BRNGN", "SW2BROWN", "SW2COMM", "SW2COMP", "SW2DIRT", "SW2EXIT",
  "SW2GRAY", "SW2GRAY1", "SW2METAL", "SW2PIPE", "SW2SLAD", "SW2STARG", "SW2STON1", "SW2STON2",
  "SW2STONE", "SW2STRTN", "TEKWALL1", "TEKWALL2", "TEKWALL3", "TEKWALL4", "TEKWALL5"]

/-- src/universe.rs:106-125 `DOOM2_FLATS`. -/
def doom2Flats : List String := [
  "FLOOR0_1", "FLOOR0_3", "FLOOR0_6", "FLOOR1_1", "FLOOR1_7", "FLOOR3_3", "FLOOR4_1", "FLOOR4_5",
  "FLOOR4_6", "FLOOR4_8", "FLOOR5_1", "FLOOR5_2", "FLOOR5_3", "FLOOR5_4", "STEP1", "STEP2",
  "FLOOR6_1", "FLOOR6_2", "TLITE6_1", "TLITE6_4", "TLITE6_5", "TLITE6_6", "FLOOR7_1", "FLOOR7_2",
  "MFLR8_1", "DEM1_1", "DEM1_2", "DEM1_3", "DEM1_4", "CEIL3_1", "CEIL3_2", "CEIL3_5", "CEIL4_2",
  "CEIL4_3", "CEIL5_1", "CEIL5_2", "FLAT1", "FLAT2", "FLAT5", "FLAT10", "FLAT14", "FLAT18",
  "FLAT20", "FLAT22", "FLAT23", "FLAT5_4", "FLAT5_5", "CONS1_1", "CONS1_5", "CONS1_7", "NUKAGE1",
  "NUKAGE2", "NUKAGE3", "F_SKY1", "SFLR6_1", "SFLR6_4", "SFLR7_1", "SFLR7_4", "FLOOR0_2",
  "FLOOR0_5", "FLOOR0_7", "FLOOR1_6", "GATE1", "GATE2", "GATE3", "GATE4", "FWATER1", "FWATER2",
  "FWATER3", "FWATER4", "LAVA1", "LAVA2", "LAVA3", "LAVA4", "DEM1_5", "DEM1_6", "MFLR8_2",
  "MFLR8_3", "MFLR8_4", "CEIL1_1", "CEIL1_2", "CEIL1_3", "CEIL3_3", "CEIL3_4", "CEIL3_6", "CEIL4_1",
  "BLOOD1", "BLOOD2", "BLOOD3", "FLAT1_1", "FLAT1_2", "FLAT1_3", "FLAT5_1", "FLAT5_2", "FLAT5_3",
  "FLAT5_6", "FLAT5_7", "FLAT5_8", "CRATOP1", "CRATOP2", "FLAT3", "FLAT4", "FLAT8", "FLAT9",
  "FLAT17", "FLAT19", "COMP01", "GRASS1", "GRASS2", "GRNLITE1", "GRNROCK", "RROCK01", "RROCK02",
  "RROCK03", "RROCK04", "RROCK05", "RROCK06", "RROCK07", "RROCK08", "RROCK09", "RROCK10", "RROCK11",
  "RROCK12", "RROCK13", "RROCK14", "RROCK15", "RROCK16", "RROCK17", "RROCK18", "RROCK19", "RROCK20",
  "SLIME01", "SLIME02", "SLIME03", "SLIME04", "SLIME05", "SLIME06", "SLIME07", "SLIME08", "SLIME09",
  "SLIME10", "SLIME11", "SLIME12", "SLIME13", "SLIME14", "SLIME15", "SLIME16"]

/-- src/universe.rs:127-180 `DOOM2_TEXTURES`. -/
def doom2Textures : List String := [
  "AASHITTY", "ASHWALL2", "ASHWALL3", "ASHWALL4", "ASHWALL6", "ASHWALL7", "BFALL1", "BFALL2",
  "BFALL3", "BFALL4", "BIGBRIK1", "BIGBRIK2", "BIGBRIK3", "BIGDOOR1", "BIGDOOR2", "BIGDOOR3",
  "BIGDOOR4", "BIGDOOR5", "BIGDOOR6", "BIGDOOR7", "BLAKWAL1", "BLAKWAL2", "BLODRIP1", "BLODRIP2",
  "BLODRIP3", "BLODRIP4", "BRICK1", "BRICK10", "BRICK11", "BRICK12", "BRICK2", "BRICK3", "BRICK4",
  "BRICK5", "BRICK6", "BRICK7", "BRICK8", "BRICK9", "BRICKLIT", "BRNPOIS", "BRNSMAL1", "BRNSMAL2",
  "BRNSMALC", "BRNSMALL", "BRNSMALR", "BRONZE1", "BRONZE2", "BRONZE3", "BRONZE4", "BROVINE2",
  "BROWN1", "BROWN144", "BROWN96", "BROWNGRN", "BROWNHUG", "BROWNPIP", "BRWINDOW", "BSTONE1",
  "BSTONE2", "BSTONE3", "CEMENT1", "CEMENT2", "CEMENT3", "CEMENT4", "CEMENT5", "CEMENT6", "CEMENT7",
  "CEMENT8", "CEMENT9", "COMPBLUE", "COMPSPAN", "COMPSTA1", "COMPSTA2", "COMPTALL", "COMPWERD",
  "CRACKLE2", "CRACKLE4", "CRATE1", "CRATE2", "CRATE3", "CRATELIT", "CRATINY", "CRATWIDE",
  "DBRAIN1", "DBRAIN2", "DBRAIN3", "DBRAIN4", "DOOR1", "DOOR3", "DOORBLU", "DOORBLU2", "DOORRED",
  "DOORRED2", "DOORSTOP", "DOORTRAK", "DOORYEL", "DOORYEL2", "EXITDOOR", "EXITSIGN", "EXITSTON",
  "FIREBLU1", "FIREBLU2", "FIRELAV2", "FIRELAV3", "FIRELAVA", "FIREMAG1", "FIREMAG2", "FIREMAG3",
  "FIREWALA", "FIREWALB", "FIREWALL", "GRAY1", "GRAY2", "GRAY4", "GRAY5", "GRAY7", "GRAYBIG",
  "GRAYPOIS", "GRAYTALL", "GRAYVINE", "GSTFONT1", "GSTFONT2", "GSTFONT3", "GSTGARG", "GSTLION",
  "GSTONE1", "GSTONE2", "GSTSATYR", "GSTVINE1", "GSTVINE2", "ICKWALL1", "ICKWALL2", "ICKWALL3",
  "ICKWALL4", "ICKWALL5", "ICKWALL7", "LITE3", "LITE5", "LITEBLU1", "LITEBLU4", "MARBFAC2",
  "MARBFAC3", "MARBFAC4", "MARBFACE", "MARBGRAY", "MARBLE1", "MARBLE2", "MARBLE3", "MARBLOD1",
  "METAL", "METAL1", "METAL2", "METAL3", "METAL4", "METAL5", "METAL6", "METAL7", "MIDBARS1",
  "MIDBARS3", "MIDBRN1", "MIDBRONZ", "MIDGRATE", "MIDSPACE", "MODWALL1", "MODWALL2", "MODWALL3",
  "MODWALL4", "NUKE24", "NUKEDGE1", "NUKEPOIS", "PANBLACK", "PANBLUE", "PANBOOK", "PANBORD1",
  "PANBORD2", "PANCASE1", "PANCASE2", "PANEL1", "PANEL2", "PANEL3", "PANEL4", "PANEL5", "PANEL6",
  "PANEL7", "PANEL8", "PANEL9", "PANRED", "PIPE1", "PIPE2", "PIPE4", "PIPE6", "PIPES", "PIPEWAL1",
  "PIPEWAL2", "PLAT1", "REDWALL", "ROCK1", "ROCK2", "ROCK3", "ROCK4", "ROCK5", "ROCKRED1",
  "ROCKRED2", "ROCKRED3", "SFALL1", "SFALL2", "SFALL3", "SFALL4", "SHAWN1", "SHAWN2", "SHAWN3",
  "SILVER1", "SILVER2", "SILVER3", "SK_LEFT", "SK_RIGHT", "SKIN2", "SKINCUT", "SKINEDGE",
  "SKINFACE", "SKINLOW", "SKINMET1", "SKINMET2", "SKINSCAB", "SKINSYMB", "SKSNAKE1", "SKSNAKE2",
  "SKSPINE1", "SKSPINE2", "SKY1", "SKY2", "SKY3", "SLADPOIS", "SLADSKUL", "SLADWALL", "SLOPPY1",
  "SLOPPY2", "SP_DUDE1", "SP_DUDE2", "SP_DUDE4", "SP_DUDE5", "SP_DUDE7", "SP_DUDE8", "SP_FACE1",
  "SP_FACE2", "SP_HOT1", "SP_ROCK1", "SPACEW2", "SPACEW3", "SPACEW4", "SPCDOOR1", "SPCDOOR2",
  "SPCDOOR3", "SPCDOOR4", "STARBR2", "STARG1", "STARG2", "STARG3", "STARGR1", "STARGR2", "STARTAN2",
  "STARTAN3", "STEP1", "STEP2", "STEP3", "STEP4", "STEP5", "STEP6", "STEPLAD1", "STEPTOP", "STONE",
  "STONE2", "STONE3", "STONE4", "STONE5", "STONE6", "STONE7", "STUCCO", "STUCCO1", "STUCCO2",
  "STUCCO3", "SUPPORT2", "SUPPORT3", "SW1BLUE", "SW1BRCOM", "SW1BRIK", "SW1BRN1", "SW1BRN2",
  "SW1BRNGN", "SW1BROWN", "SW1CMT", "SW1COMM", "SW1COMP", "SW1DIRT", "SW1EXIT", "SW1GARG",
  "SW1GRAY", "SW1GRAY1", "SW1GSTON", "SW1HOT", "SW1LION", "SW1MARB", "SW1MET2", "SW1METAL",
  "SW1MOD1", "SW1PANEL", "SW1PIPE", "SW1ROCK", "SW1SATYR", "SW1SKIN", "SW1SKULL", "SW1SLAD",
  "SW1STARG", "SW1STON1", "SW1STON2", "SW1STON6", "SW1STONE", "SW1STRTN", "SW1TEK", "SW1VINE",
  "SW1WDMET", "SW1WOOD", "SW1ZIM", "SW2BLUE", "SW2BRCOM", "SW2BRIK", "SW2BRN1", "SW2BRN2",
  "SW2BRNGN", "SW2BROWN", "SW2CMT", "SW2COMM", "SW2COMP", "SW2DIRT", "SW2EXIT", "SW2GARG",
  "SW2GRAY", "SW2GRAY1", "SW2GSTON", "SW2HOT", "SW2LION", "SW2MARB", "SW2MET2", "SW2METAL",
  "SW2MOD1", "SW2PANEL", "SW2PIPE", "SW2ROCK", "SW2SATYR", "SW2SKIN", "SW2SKULL", "SW2SLAD",
  "SW2STARG", "SW2STON1", "SW2STON2", "SW2STON6", "SW2STONE", "SW2STRTN", "SW2TEK", "SW2VINE",
  "SW2WDMET", "SW2WOOD", "SW2ZIM", "TANROCK2", "TANROCK3", "TANROCK4", "TANROCK5", "TANROCK7",
  "TANROCK8", "TEKBRON1", "TEKBRON2", "TEKGREN1", "TEKGREN2", "TEKGREN3", "TEKGREN4", "TEKGREN5",
  "TEKLITE", "TEKLITE2", "TEKWALL1", "TEKWALL4", "TEKWALL6", "WOOD1", "WOOD10", "WOOD12", "WOOD3",
  "WOOD4", "WOOD5", "WOOD6", "WOOD7", "WOOD8", "WOOD9", "WOODGARG", "WOODMET1", "WOODMET2",
  "WOODMET3", "WOODMET4", "WOODVERT", "ZDOORB1", "ZDOORF1", "ZELDOOR", "ZIMMER1", "ZIMMER2",
  "ZIMMER3", "ZIMMER4", "ZIMMER5", "ZIMMER7", "ZIMMER8", "ZZWOLF1", "ZZWOLF10", "ZZWOLF11",
  "ZZWOLF12", "ZZWOLF13", "ZZWOLF2", "ZZWOLF3", "ZZWOLF4", "ZZWOLF5", "ZZWOLF6", "ZZWOLF7",
  "ZZWOLF9", "ZZZFACE1", "ZZZFACE2", "ZZZFACE3", "ZZZFACE4", "ZZZFACE5", "ZZZFACE6", "ZZZFACE7",
  "ZZZFACE8", "ZZZFACE9"]

/-- src/vanilladoom.rs:56-3893 `DOOM2_ACTORS`. -/
def doom2Actors : List ActorType := [
  ⟨"DoomPlayer", .Miscellaneous, none, 100, 16, 56⟩,
  ⟨"ZombieMan", .Monster, some 3004, 20, 20, 56⟩,
  ⟨"ShotgunGuy", .Monster, some 9, 30, 20, 56⟩,
  ⟨"Archvile", .Monster, some 64, 700, 20, 56⟩,
  ⟨"ArchvileFire", .Miscellaneous, none, 1000, 20, 16⟩,
  ⟨"Revenant", .Monster, some 66, 300, 20, 56⟩,
  ⟨"RevenantTracer", .Miscellaneous, none, 1000, 11, 8⟩,
  ⟨"RevenantTracerSmoke", .Miscellaneous, none, 1000, 20, 16⟩,
  ⟨"Mancubus", .Monster, some 67, 600, 48, 64⟩,
  ⟨"FatShot", .Miscellaneous, none, 1000, 6, 8⟩,
  ⟨"ChaingunGuy", .Monster, some 65, 70, 20, 56⟩,
  ⟨"DoomImp", .Monster, some 3001, 60, 20, 56⟩,
  ⟨"Demon", .Monster, some 3002, 150, 30, 56⟩,
  ⟨"Spectre", .Monster, some 58, 150, 30, 56⟩,
  ⟨"Cacodemon", .Monster, some 3005, 400, 31, 56⟩,
  ⟨"BaronOfHell", .Monster, some 3003, 1000, 24, 64⟩,
  ⟨"BaronBall", .Miscellaneous, none, 1000, 6, 8⟩,
  ⟨"HellKnight", .Monster, some 69, 500, 24, 64⟩,
  ⟨"LostSoul", .Monster, some 3006, 100, 16, 56⟩,
  ⟨"SpiderMastermind", .Monster, some 7, 3000, 128, 100⟩,
  ⟨"Arachnotron", .Monster, some 68, 500, 64, 64⟩,
  ⟨"Cyberdemon", .Monster, some 16, 4000, 40, 110⟩,
  ⟨"PainElemental", .Monster, some 71, 400, 31, 56⟩,
  ⟨"WolfensteinSS", .Monster, some 84, 50, 20, 56⟩,
  ⟨"CommanderKeen", .Monster, some 72, 100, 16, 72⟩,
  ⟨"BossBrain", .Monster, some 88, 250, 16, 16⟩,
  ⟨"BossEye", .Miscellaneous, some 89, 1000, 20, 32⟩,
  ⟨"BossTarget", .Miscellaneous, some 87, 1000, 20, 32⟩,
  ⟨"SpawnShot", .Miscellaneous, none, 1000, 6, 32⟩,
  ⟨"SpawnFire", .Miscellaneous, none, 1000, 20, 16⟩,
  ⟨"ExplosiveBarrel", .Miscellaneous, some 2035, 20, 10, 42⟩,
  ⟨"DoomImpBall", .Miscellaneous, none, 1000, 6, 8⟩,
  ⟨"CacodemonBall", .Miscellaneous, none, 1000, 6, 8⟩,
  ⟨"Rocket", .Miscellaneous, none, 1000, 11, 8⟩,
  ⟨"PlasmaBall", .Miscellaneous, none, 1000, 13, 8⟩,
  ⟨"BFGBall", .Miscellaneous, none, 1000, 13, 8⟩,
  ⟨"ArachnotronPlasma", .Miscellaneous, none, 1000, 13, 8⟩,
  ⟨"BulletPuff", .Miscellaneous, none, 1000, 20, 16⟩,
  ⟨"Blood", .Miscellaneous, none, 1000, 20, 16⟩,
  ⟨"TeleportFog", .Miscellaneous, none, 1000, 20, 16⟩,
  ⟨"ItemFog", .Miscellaneous, none, 1000, 20, 16⟩,
  ⟨"TeleportDest", .Miscellaneous, some 14, 1000, 20, 16⟩,
  ⟨"BFGExtra", .Miscellaneous, none, 1000, 20, 16⟩,
  ⟨"GreenArmor", .HealthArmor, some 2018, 1000, 20, 16⟩,
  ⟨"BlueArmor", .HealthArmor, some 2019, 1000, 20, 16⟩,
  ⟨"HealthBonus", .HealthArmor, some 2014, 1000, 20, 16⟩,
  ⟨"ArmorBonus", .HealthArmor, some 2015, 1000, 20, 16⟩,
  ⟨"BlueCard", .Key, some 5, 1000, 20, 16⟩,
  ⟨"RedCard", .Key, some 13, 1000, 20, 16⟩,
  ⟨"YellowCard", .Key, some 6, 1000, 20, 16⟩,
  ⟨"YellowSkull", .Key, some 39, 1000, 20, 16⟩,
  ⟨"RedSkull", .Key, some 38, 1000, 20, 16⟩,
  ⟨"BlueSkull", .Key, some 40, 1000, 20, 16⟩,
  ⟨"Stimpack", .HealthArmor, some 2011, 1000, 20, 16⟩,
  ⟨"Medikit", .HealthArmor, some 2012, 1000, 20, 16⟩,
  ⟨"SoulSphere", .HealthArmor, some 2013, 1000, 20, 16⟩,
  ⟨"InvulnerabilitySphere", .Powerup, some 2022, 1000, 20, 16⟩,
  ⟨"Berserk", .Powerup, some 2023, 1000, 20, 16⟩,
  ⟨"BlurSphere", .Powerup, some 2024, 1000, 20, 16⟩,
  ⟨"RadSuit", .Powerup, some 2025, 1000, 20, 16⟩,
  ⟨"Allmap", .Powerup, some 2026, 1000, 20, 16⟩,
  ⟨"Infrared", .Powerup, some 2045, 1000, 20, 16⟩,
  ⟨"Megasphere", .HealthArmor, some 83, 1000, 20, 16⟩,
  ⟨"Clip", .Ammo, some 2007, 1000, 20, 16⟩,
  ⟨"ClipBox", .Ammo, some 2048, 1000, 20, 16⟩,
  ⟨"RocketAmmo", .Ammo, some 2010, 1000, 20, 16⟩,
  ⟨"RocketBox", .Ammo, some 2046, 1000, 20, 16⟩,
  ⟨"Cell", .Ammo, some 2047, 1000, 20, 16⟩,
  ⟨"CellPack", .Ammo, some 17, 1000, 20, 16⟩,
  ⟨"Shell", .Ammo, some 2008, 1000, 20, 16⟩,
  ⟨"ShellBox", .Ammo, some 2049, 1000, 20, 16⟩,
  ⟨"Backpack", .Miscellaneous, some 8, 1000, 20, 16⟩,
  ⟨"BFG9000", .Weapon, some 2006, 1000, 20, 16⟩,
  ⟨"Chaingun", .Weapon, some 2002, 1000, 20, 16⟩,
  ⟨"Chainsaw", .Weapon, some 2005, 1000, 20, 16⟩,
  ⟨"RocketLauncher", .Weapon, some 2003, 1000, 20, 16⟩,
  ⟨"PlasmaRifle", .Weapon, some 2004, 1000, 20, 16⟩,
  ⟨"Shotgun", .Weapon, some 2001, 1000, 20, 16⟩,
  ⟨"SuperShotgun", .Weapon, some 82, 1000, 20, 16⟩,
  ⟨"TechLamp", .Miscellaneous, some 85, 1000, 16, 16⟩,
  ⟨"TechLamp2", .Miscellaneous, some 86, 1000, 16, 16⟩,
  ⟨"Column", .Miscellaneous, some 2028, 1000, 16, 16⟩,
  ⟨"TallGreenColumn", .Miscellaneous, some 30, 1000, 16, 16⟩,
  ⟨"ShortGreenColumn", .Miscellaneous, some 31, 1000, 16, 16⟩,
  ⟨"TallRedColumn", .Miscellaneous, some 32, 1000, 16, 16⟩,
  ⟨"ShortRedColumn", .Miscellaneous, some 33, 1000, 16, 16⟩,
  ⟨"SkullColumn", .Miscellaneous, some 37, 1000, 16, 16⟩,
  ⟨"HeartColumn", .Miscellaneous, some 36, 1000, 16, 16⟩,
  ⟨"EvilEye", .Miscellaneous, some 41, 1000, 16, 16⟩,
  ⟨"FloatingSkull", .Miscellaneous, some 42, 1000, 16, 16⟩,
  ⟨"TorchTree", .Miscellaneous, some 43, 1000, 16, 16⟩,
  ⟨"BlueTorch", .Miscellaneous, some 44, 1000, 16, 16⟩,
  ⟨"GreenTorch", .Miscellaneous, some 45, 1000, 16, 16⟩,
  ⟨"RedTorch", .Miscellaneous, some 46, 1000, 16, 16⟩,
  ⟨"ShortBlueTorch", .Miscellaneous, some 55, 1000, 16, 16⟩,
  ⟨"ShortGreenTorch", .Miscellaneous, some 56, 1000, 16, 16⟩,
  ⟨"ShortRedTorch", .Miscellaneous, some 57, 1000, 16, 16⟩,
  ⟨"Stalagtite", .Miscellaneous, some 47, 1000, 16, 16⟩,
  ⟨"TechPillar", .Miscellaneous, some 48, 1000, 16, 16⟩,
  ⟨"Candlestick", .Miscellaneous, some 34, 1000, 20, 16⟩,
  ⟨"Candelabra", .Miscellaneous, some 35, 1000, 16, 16⟩,
  ⟨"BloodyTwitch", .Miscellaneous, some 49, 1000, 16, 68⟩,
  ⟨"Meat2", .Miscellaneous, some 50, 1000, 16, 84⟩,
  ⟨"Meat3", .Miscellaneous, some 51, 1000, 16, 84⟩,
  ⟨"Meat4", .Miscellaneous, some 52, 1000, 16, 68⟩,
  ⟨"Meat5", .Miscellaneous, some 53, 1000, 16, 52⟩,
  ⟨"NonsolidMeat2", .Miscellaneous, some 59, 1000, 20, 84⟩,
  ⟨"NonsolidMeat3", .Miscellaneous, some 60, 1000, 20, 68⟩,
  ⟨"NonsolidMeat4", .Miscellaneous, some 61, 1000, 20, 52⟩,
  ⟨"NonsolidMeat5", .Miscellaneous, some 62, 1000, 20, 52⟩,
  ⟨"NonsolidTwitch", .Miscellaneous, some 63, 1000, 20, 68⟩,
  ⟨"DeadCacodemon", .Miscellaneous, some 22, 1000, 20, 16⟩,
  ⟨"DeadMarine", .Miscellaneous, some 15, 1000, 20, 16⟩,
  ⟨"DeadZombieMan", .Miscellaneous, some 18, 1000, 20, 16⟩,
  ⟨"DeadDemon", .Miscellaneous, some 21, 1000, 20, 16⟩,
  ⟨"DeadLostSoul", .Miscellaneous, some 23, 1000, 20, 16⟩,
  ⟨"DeadDoomImp", .Miscellaneous, some 20, 1000, 20, 16⟩,
  ⟨"DeadShotgunGuy", .Miscellaneous, some 19, 1000, 20, 16⟩,
  ⟨"GibbedMarine", .Miscellaneous, some 10, 1000, 20, 16⟩,
  ⟨"GibbedMarineExtra", .Miscellaneous, some 12, 1000, 20, 16⟩,
  ⟨"HeadsOnAStick", .Miscellaneous, some 28, 1000, 16, 16⟩,
  ⟨"Gibs", .Miscellaneous, some 24, 1000, 20, 16⟩,
  ⟨"HeadOnAStick", .Miscellaneous, some 27, 1000, 16, 16⟩,
  ⟨"HeadCandles", .Miscellaneous, some 29, 1000, 16, 16⟩,
  ⟨"DeadStick", .Miscellaneous, some 25, 1000, 16, 16⟩,
  ⟨"LiveStick", .Miscellaneous, some 26, 1000, 16, 16⟩,
  ⟨"BigTree", .Miscellaneous, some 54, 1000, 32, 16⟩,
  ⟨"BurningBarrel", .Miscellaneous, some 70, 1000, 16, 16⟩,
  ⟨"HangNoGuts", .Miscellaneous, some 73, 1000, 16, 88⟩,
  ⟨"HangBNoBrain", .Miscellaneous, some 74, 1000, 16, 88⟩,
  ⟨"HangTLookingDown", .Miscellaneous, some 75, 1000, 16, 64⟩,
  ⟨"HangTSkull", .Miscellaneous, some 76, 1000, 16, 64⟩,
  ⟨"HangTLookingUp", .Miscellaneous, some 77, 1000, 16, 64⟩,
  ⟨"HangTNoBrain", .Miscellaneous, some 78, 1000, 16, 64⟩,
  ⟨"ColonGibs", .Miscellaneous, some 79, 1000, 20, 16⟩,
  ⟨"SmallBloodPool", .Miscellaneous, some 80, 1000, 20, 16⟩,
  ⟨"BrainStem", .Miscellaneous, some 81, 1000, 20, 16⟩]

/-- src/universe.rs:60-69 `lookup_thing_type`: the first actor with that number. -/
def lookupThingType (doomednum : UInt32) : Option ActorType :=
  let rec go : List ActorType → Option ActorType
    | [] => none
    | t :: ts =>
      match t.doomednum with
      | some den => if den = doomednum then some t else go ts
      | none => go ts
  go doom2Actors

end Idc
