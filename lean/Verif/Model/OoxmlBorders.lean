import Verif.Py

/-! The table of border styles of `/repo/benker/parsers/ooxml/__init__.py`. -/

namespace Benker.Ooxml

/-- `_BORDER_STYLE_MAPPING` (parsers/ooxml/__init__.py 31-606) -/
def borderStyleMapping : Dict String String :=
  [("nil", "none"), ("none", "none"), ("single", "solid"), ("thick", "w-thick"), ("double", "double"), ("dotted", "dotted"),
   ("dashed", "dashed"), ("dotDash", "w-dot-dash"), ("dotDotDash", "w-dot-dot-dash"), ("triple", "w-triple"),
   ("thinThickSmallGap", "w-thin-thick-small-gap"), ("thickThinSmallGap", "w-thick-thin-small-gap"),
   ("thinThickThinSmallGap", "w-thin-thick-thin-small-gap"), ("thinThickMediumGap", "w-thin-thick-medium-gap"),
   ("thickThinMediumGap", "w-thick-thin-medium-gap"), ("thinThickThinMediumGap", "w-thin-thick-thin-medium-gap"),
   ("thinThickLargeGap", "w-thin-thick-large-gap"), ("thickThinLargeGap", "w-thick-thin-large-gap"),
   ("thinThickThinLargeGap", "w-thin-thick-thin-large-gap"), ("wave", "w-wave"), ("doubleWave", "w-double-wave"),
   ("dashSmallGap", "w-dash-small-gap"), ("dashDotStroked", "w-dash-dot-stroked"), ("threeDEmboss", "w-three-d-emboss"),
   ("threeDEngrave", "w-three-d-engrave"), ("outset", "outset"), ("inset", "inset"), ("apples", "w-apples"),
   ("archedScallops", "w-arched-scallops"), ("babyPacifier", "w-baby-pacifier"), ("babyRattle", "w-baby-rattle"),
   ("balloons3Colors", "w-balloons3-colors"), ("balloonsHotAir", "w-balloons-hot-air"), ("basicBlackDashes", "w-basic-black-dashes"),
   ("basicBlackDots", "w-basic-black-dots"), ("basicBlackSquares", "w-basic-black-squares"), ("basicThinLines", "w-basic-thin-lines"),
   ("basicWhiteDashes", "w-basic-white-dashes"), ("basicWhiteDots", "w-basic-white-dots"),
   ("basicWhiteSquares", "w-basic-white-squares"), ("basicWideInline", "w-basic-wide-inline"),
   ("basicWideMidline", "w-basic-wide-midline"), ("basicWideOutline", "w-basic-wide-outline"), ("bats", "w-bats"), ("birds", "w-birds"),
   ("birdsFlight", "w-birds-flight"), ("cabins", "w-cabins"), ("cakeSlice", "w-cake-slice"), ("candyCorn", "w-candy-corn"),
   ("celticKnotwork", "w-celtic-knotwork"), ("certificateBanner", "w-certificate-banner"), ("chainLink", "w-chain-link"),
   ("champagneBottle", "w-champagne-bottle"), ("checkedBarBlack", "w-checked-bar-black"), ("checkedBarColor", "w-checked-bar-color"),
   ("checkered", "w-checkered"), ("christmasTree", "w-christmas-tree"), ("circlesLines", "w-circles-lines"),
   ("circlesRectangles", "w-circles-rectangles"), ("classicalWave", "w-classical-wave"), ("clocks", "w-clocks"),
   ("compass", "w-compass"), ("confetti", "w-confetti"), ("confettiGrays", "w-confetti-grays"),
   ("confettiOutline", "w-confetti-outline"), ("confettiStreamers", "w-confetti-streamers"), ("confettiWhite", "w-confetti-white"),
   ("cornerTriangles", "w-corner-triangles"), ("couponCutoutDashes", "w-coupon-cutout-dashes"),
   ("couponCutoutDots", "w-coupon-cutout-dots"), ("crazyMaze", "w-crazy-maze"), ("creaturesButterfly", "w-creatures-butterfly"),
   ("creaturesFish", "w-creatures-fish"), ("creaturesInsects", "w-creatures-insects"), ("creaturesLadyBug", "w-creatures-lady-bug"),
   ("crossStitch", "w-cross-stitch"), ("cup", "w-cup"), ("decoArch", "w-deco-arch"), ("decoArchColor", "w-deco-arch-color"),
   ("decoBlocks", "w-deco-blocks"), ("diamondsGray", "w-diamonds-gray"), ("doubleD", "w-double-d"),
   ("doubleDiamonds", "w-double-diamonds"), ("earth1", "w-earth1"), ("earth2", "w-earth2"),
   ("eclipsingSquares1", "w-eclipsing-squares1"), ("eclipsingSquares2", "w-eclipsing-squares2"), ("eggsBlack", "w-eggs-black"),
   ("fans", "w-fans"), ("film", "w-film"), ("firecrackers", "w-firecrackers"), ("flowersBlockPrint", "w-flowers-block-print"),
   ("flowersDaisies", "w-flowers-daisies"), ("flowersModern1", "w-flowers-modern1"), ("flowersModern2", "w-flowers-modern2"),
   ("flowersPansy", "w-flowers-pansy"), ("flowersRedRose", "w-flowers-red-rose"), ("flowersRoses", "w-flowers-roses"),
   ("flowersTeacup", "w-flowers-teacup"), ("flowersTiny", "w-flowers-tiny"), ("gems", "w-gems"), ("gingerbreadMan", "w-gingerbread-man"),
   ("gradient", "w-gradient"), ("handmade1", "w-handmade1"), ("handmade2", "w-handmade2"), ("heartBalloon", "w-heart-balloon"),
   ("heartGray", "w-heart-gray"), ("hearts", "w-hearts"), ("heebieJeebies", "w-heebie-jeebies"), ("holly", "w-holly"),
   ("houseFunky", "w-house-funky"), ("hypnotic", "w-hypnotic"), ("iceCreamCones", "w-ice-cream-cones"), ("lightBulb", "w-light-bulb"),
   ("lightning1", "w-lightning1"), ("lightning2", "w-lightning2"), ("mapPins", "w-map-pins"), ("mapleLeaf", "w-maple-leaf"),
   ("mapleMuffins", "w-maple-muffins"), ("marquee", "w-marquee"), ("marqueeToothed", "w-marquee-toothed"), ("moons", "w-moons"),
   ("mosaic", "w-mosaic"), ("musicNotes", "w-music-notes"), ("northwest", "w-northwest"), ("ovals", "w-ovals"),
   ("packages", "w-packages"), ("palmsBlack", "w-palms-black"), ("palmsColor", "w-palms-color"), ("paperClips", "w-paper-clips"),
   ("papyrus", "w-papyrus"), ("partyFavor", "w-party-favor"), ("partyGlass", "w-party-glass"), ("pencils", "w-pencils"),
   ("people", "w-people"), ("peopleWaving", "w-people-waving"), ("peopleHats", "w-people-hats"), ("poinsettias", "w-poinsettias"),
   ("postageStamp", "w-postage-stamp"), ("pumpkin1", "w-pumpkin1"), ("pushPinNote2", "w-push-pin-note2"),
   ("pushPinNote1", "w-push-pin-note1"), ("pyramids", "w-pyramids"), ("pyramidsAbove", "w-pyramids-above"), ("quadrants", "w-quadrants"),
   ("rings", "w-rings"), ("safari", "w-safari"), ("sawtooth", "w-sawtooth"), ("sawtoothGray", "w-sawtooth-gray"),
   ("scaredCat", "w-scared-cat"), ("seattle", "w-seattle"), ("shadowedSquares", "w-shadowed-squares"), ("sharksTeeth", "w-sharks-teeth"),
   ("shorebirdTracks", "w-shorebird-tracks"), ("skyrocket", "w-skyrocket"), ("snowflakeFancy", "w-snowflake-fancy"),
   ("snowflakes", "w-snowflakes"), ("sombrero", "w-sombrero"), ("southwest", "w-southwest"), ("stars", "w-stars"),
   ("starsTop", "w-stars-top"), ("stars3d", "w-stars3d"), ("starsBlack", "w-stars-black"), ("starsShadowed", "w-stars-shadowed"),
   ("sun", "w-sun"), ("swirligig", "w-swirligig"), ("tornPaper", "w-torn-paper"), ("tornPaperBlack", "w-torn-paper-black"),
   ("trees", "w-trees"), ("triangleParty", "w-triangle-party"), ("triangles", "w-triangles"), ("tribal1", "w-tribal1"),
   ("tribal2", "w-tribal2"), ("tribal3", "w-tribal3"), ("tribal4", "w-tribal4"), ("tribal5", "w-tribal5"), ("tribal6", "w-tribal6"),
   ("twistedLines1", "w-twisted-lines1"), ("twistedLines2", "w-twisted-lines2"), ("vine", "w-vine"), ("waveline", "w-waveline"),
   ("weavingAngles", "w-weaving-angles"), ("weavingBraid", "w-weaving-braid"), ("weavingRibbon", "w-weaving-ribbon"),
   ("weavingStrips", "w-weaving-strips"), ("whiteFlowers", "w-white-flowers"), ("woodwork", "w-woodwork"),
   ("xIllusions", "w-x-illusions"), ("zanyTriangles", "w-zany-triangles"), ("zigZag", "w-zig-zag"), ("zigZagStitch", "w-zig-zag-stitch")]

end Benker.Ooxml
