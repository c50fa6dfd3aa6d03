NOTES = {
"C01": "",
"C03": "False of the code: after a removal the key str(len) may be taken. Partial: histories where no entry has that key, in particular append-only histories.",
"C05": "False of the code: pop(key) pops the last item whatever the key. Partial: correct exactly when the key is the last one.",
"C10": "False of the code: an entry under the key None is silently dropped by copy. Partial: no None key.",
"C12": "False of the code: recursive_split_dict drops the separator argument in its recursion. Partial: default separator or depth at most two.",
"C14": "False of the code in general (single-element lists, empty values, unstripped text). The exact normal form is proved for all trees and the round trip is characterised by an iff.",
"C15": "False of the code: 2012-06-30 and 2016-12-31 are in no row of the table and raise. Partial: defined exactly elsewhere in the range; documented value and monotonicity proved for all dates.",
"C16": "False of the code: __gt__ is `not __lt__`, so t > t; and equal instants with different offsets are unequal. Partial: everything else, for all stamps.",
"C17": "False in the last 306 ns before the maximum, where the rounding overflows. Partial: exact elsewhere; clamping, idempotence, monotonicity proved for all stamps.",
"C19": "False of the code within a second of a leap second. Partial: stamps a second apart, or with equal leap seconds.",
"C20": "False of the code: offsets are kept, not converted to UTC. Partial: UTC or naive input; eq implies equal hash for all.",
"C21": "False of the code for instants up to 300 s after the epoch. Float division is taken as exact.",
"C75": "False of the code for gps_time=True. Partial: gps_time=False; the exact shift is proved for GPS stamps.",
"C76": "False for sub-microsecond durations. Partial: whole microseconds, inside the range.",
"C77": "False of the code: the time of day is kept and compared. Partial: midnight stamps; eq implies same printed date.",
"C78": "False of the code: assignments are not validated, the raw value is stored.",
"C27": "False of the code: contains tests both end points, so a half-open band does not contain itself. Partial: exact meaning, soundness, transitivity for all bands.",
"C29": "Over the reals; floating point rounding is outside the model.",
"C79": "False of the code: the automatic name is only set once.",
"C22": 'False of the code: False is skipped because False == 0.0, arrays with a zero are dropped by to_dict. Partial: exact description of what is taken; never-erases, match and idempotence proved in full.',
"C23": 'False of the code: 0.0 == None for coordinates only one way round, and isclose is not transitive. Partial: exact meaning of == for all objects, reflexive for all, symmetric/transitive without numeric fields. Numbers are rationals (no NaN).',
"C24": 'False of the code: load() returns None, so comparison with a dict is always False.',
"C25": 'Keywords named after the class are treated by C82.',
"C80": 'False of the code: arrays containing a zero are left out. Partial: exact description.',
"C82": 'False of the code: dotted keys inside the wrapped dict are not expanded. Partial: dot-free keys.',
"C30": 'Objects are values; sharing between runs is outside this model.',
"C31": 'False of the code when a channel of another class holds the name. Partial: same class or new name; map behaviour of add/get/remove in full.',
"C32": "False of the code: the dict branch tests 'b' twice and never 'h'; a dict without type raises KeyError. Partial: all other names.",
"C33": 'Instants in UTC.',
"C34": 'False of the code: the receiver is modified. Partial: what merge does contain.',
"C35": 'False of the code with update=False (run_list stale). Partial: all histories with the default update=True, incl. merges, edits of stored runs and attribute assignments.',
"C36": "False of the code: the removed run's exclusive channels are re-created on the first remaining run (C36_names_survive), and stay in channels_recorded when no run remains (C36_stale_recorded). Partial: all other runs untouched; covered case exact.",
"C37": 'False of the code: calls split on an MTime, AttributeError for any station with a run.',
"C38": 'Instants in UTC.',
"C83": 'False of the code with update=False: the validator re-creates an empty run. Partial: default update=True.',
"C39": 'The bounding box is the exact minimum and maximum; coordinates are rationals.',
"C40": 'Histories of add and remove.',
"C41": 'Distinct ids; see C84, C85 for equal ids.',
"C84": "False of the code: the added station is merged by attribute update, which carries no runs. Partial: the old station's own runs stay.",
"C85": 'False of the code: as C84 for surveys; the period is also overwritten. Partial: exact effect.',
"C86": 'To the day.',
"C42": 'False of the code: exactly one filter of a class makes from_xml raise. Partial: raises iff some class has exactly one filter; otherwise content exact.',
"C87": 'False of the code: surveys without stations, stations without runs, a class with one filter. Partial: exact condition.',
"C88": 'False of the code: FIR filters are written as f_i_r_filter, which the reader skips. Partial: all other filters survive, FIR filters never do.',
"C89": 'ASCII case; no newlines.',
"C90": 'ASCII whitespace for strip.',
"C43": 'False of the code for -1 < x < 0: the sign is lost. Partial: holds for all other x, at string level; for -1 < x < 0 the opposite value comes back. Exact arithmetic.',
"C44": 'Exact arithmetic with infinities and NaN; float() of strings modelled on ASCII literals.',
"C91": 'False of the code: -0:30:00 reads as +0.5. Partial: at least one whole degree.',
"C45": "All lengths; words contain no blanks, slashes or brackets and are not 'per'.",
"C92": 'False of the code: C is celsius, coulomb is not found by symbol. Partial: every other unit by symbol; every unit but digital counts by name in any case.',
"C93": "False of the code: counts/V is stored as 'digital counts per Volt', which is unknown (KeyError for filters). Partial: names without 'digital counts'.",
"C46": 'False for rates between the bands (e.g. 0.5 samples/s), which get the code A without a band. Proved: exactly which rates are covered, the band of the code contains the rate, rates sharing a code form an interval, faster rates never get a slower code.',
"C47": 'False for rates between bands (read back as 1..1), for tide (read back as magnetic) and for inclined vertical channels. Proved: the exact meaning of every horizontal orientation code over the reals, and the round trip for horizontal azimuths, covered rates and all types but tide.',
"C94": 'Proved for every rate, including those without a band.',
"C48": 'False: add_filter with an AppliedFilter object appends without sorting, and add_filter(name=...) compares the raw name while storing it in lower case. Proved: order after every removal and addition by name, exactly when an object keeps the order, distinct names when given in normal form.',
"C49": 'Proved in full; an empty list leaves the previous units in place.',
"C50": 'Proved over the complex numbers for any list of the five filter classes, all option combinations, including that leaving out delays is exactly a shift by total_delay.',
"C51": 'Proved in full.',
"C52": 'False for ODD filters: the code appends reverse(c[1:]) instead of reverse(c[:-1]). Proved: everything else, and that an ODD expansion is symmetric iff all coefficients are equal.',
"C53": 'False for small angles: degrees below 6 pi and milliradians below a quarter turn are misread. Proved: the exact regions where each unit is recognised and idempotence there.',
"C95": 'Proved in full.',
"C96": 'False for 2000 or more frequencies: decimation leaves out the top end. Proved: ends are given frequencies, lower <= upper, and the flat case below 2000 frequencies.',
"C97": 'Proved for non-zero gain and non-cancelling taps.',
"C98": 'Proved in full.',
"C99": 'Proved; response tables are excluded as they have no negative frequencies.',
"C54": 'False for max_levels <= 0 (IndexError). Proved: rates, numbers, ids and factors for every factor list and every positive level count; a zero factor raises.',
"C55": "False unless d_k^k equals the product of the factors: the code uses rate / d^k with the factor of level k. Proved: the exact rate, correctness for equal factors, order of levels, and that the band indices are the in-band harmonics of the level's grid.",
"C56": 'False: level objects in a list are stored twice, objects first. Proved: exact effect, correctness for lists of dicts, iff statement, lookups and errors.',
"C57": 'False for min_num_stft_windows != 0, which is compared but not copied. Proved for 0; the check is characterised exactly (every differing parameter makes it fail or raise).',
"C58": 'Proved in full over rational rates.',
"C59": 'False: the taper is cached and survives setting changes. Proved: which settings the taper answers for after any history. scipy get_window is a parameter.',
"C60": 'False for min_num_stft_windows = 0 (the overlap is required). Proved for at least one window, plus the exact condition for 0 and monotonicity.',
"C101": 'False when two levels share a number. Proved for distinct numbers and for the level that lookups return.',
"C61": 'False: add_channel stores a channel without listing it, so has_channel/get_channel/remove_channel do not see it. Proved: every reported channel is stored after any history without repeated names, reports are exact after any attribute assignment, effects of add and remove.',
"C62": 'False for channels (levels) with an end but no start. Proved for those with a start, for channels, levels and both nested.',
"C63": 'Proved for all histories of add/remove/assignments without repeated names; C63_repeated shows why repeated names are excluded.',
"C64": 'Proved; np.argsort and DataFrame.sort_values are abstracted as any functions returning the row numbers in sorted order.',
"C65": "The claim for all stations is refuted: a run without time periods is lost. Proved for every station with at least one run, a time period and a distinct id per run and one scale factor per channel name; for every station no period is lost, moved or reordered. Instants are integers; pandas' same-format requirement on time columns is not modelled.",
"C66": "Refuted only for names given to the constructor (overwritten by the keyword's names); everything else is proved for every history of assignments.",
"C71": 'Proved; lower case of ASCII letters only. The uniqueness theorem covers all 45 derived classes as read from the source.',
"C100": 'Refuted for an object that already has remote stations (they are kept, so reading twice doubles them) ; proved for storable stations with distinct ids read into an object without remote stations, and the exact result for any object.',
"C102": 'Proved.',
"C103": 'Proved.',
"C67": "Range, monotonicity and the values outside the transition are proved over the reals for all bounds and windows; the part '0 outside' is refuted for Hamming (8 percent remain) and proved for the others.",
"C68": 'Proved over the reals, NaN included. The extra claim that a feature without kernels is neutral is refuted for arrays (scalar 1 cannot be combined with an array) and proved for scalars.',
"C69": 'Refuted: evaluate always raises NotImplementedError because _normalize does. Proved for a taper kernel with equal bounds.',
"C104": 'Refuted: the flag is never read; proved that it never changes a weight.',
"C105": 'Refuted: dictionaries of unknown style are dropped with a log entry; exact result proved.',
"C106": "Range and monotonicity proved; 'cuts' refuted (hard sigmoid never goes below 0.4), exact cut value proved for each style. Infinite bounds not modelled.",
"C107": 'Proved over the reals.',
"C108": 'Proved over the reals for one-dimensional weights with a frequency axis.',
"C70": 'Refuted as stated: an author that reads as a time (the word None, or a date) is taken for the time stamp. C70_iff_partial gives the exact condition for the round trip; C70_stamped_partial, C70_format_partial and C70_bad_time_partial cover the stamped case, the format and the error case.',
"C72": 'Refuted: a value containing blanks, or an empty value, shifts the pairing of all later keys. Proved: for lines of single-word pairs the items are exactly the pairs, for every spacing, with a section name in front and a remark behind; and in general the items are the words, two by two.',
"C73": 'Refuted for the channel counts: names containing the letter r are never counted and listed channels outside the known eight count as well. Index, remote default and flags are proved for all lists; the counts under the condition that only standard names are listed.',
"C109": "Refuted: comparison with None returns a new (truthy) comment. Proved: comments compare by content, strings by the parsed content, and the comment's own string compares equal under the condition of C70.",
"C110": 'Refuted when only the text differs from the defaults: to_dict then has a single key and from_dict reads the time as the text. Proved: no API-built comment has a bar in author or text (invariant), and otherwise the dictionary form is restored.',
"C111": 'Refuted: to_xml stores the composed text in the comment itself. The exact effect is C111_partial.',
"C113": 'Refuted: an id with a colon makes the file unreadable. Proved for trimmed ids without colon, comma and brackets.',
"C114": 'Refuted: the plain comment text is written but dropped when read; two colons raise ValueError; brackets are read as run ids.',
"C115": 'Refuted: the parser stops after 21 pairs and cuts values at a colon; both proved in general, and exactness for at most 21 plain pairs.',
"C116": "Refuted: 'comments: ..., author: ...' raises. Proved for author first and for one of the two.",
"C117": 'Refuted: a plain text is dropped, a run id with capitals is not found. Proved: dictionary-like texts and lower-case ids survive exactly.',
"C118": 'Refuted: the empty description and a value with a colon raise ValueError. Proved for one or more plain fields.',
"C119": 'Refuted: a missing id becomes the word None, a comma is an error, a colon cuts. Proved for ids without these characters.',
"C120": 'Refuted for a name under two keys (the last wins). Proved: exact inverse when the names are distinct; in general every name leads to a key it stands under.',
"C121": 'Refuted: every DOI gains the prefix https://doi.org/, again at every further trip; a missing DOI becomes https://doi.org/None.',
"C122": 'Refuted: the model is cut to its first word and the name appended. The exact result is proved, and that a second trip changes nothing more.',
"C123": 'Refuted for ids with a colon; exact condition proved.',
"C124": 'False of the code: a network only keeps open/closed/partial, and reading picks the last licence of that class. Proved: which licence every licence becomes, that exactly CC0-1.0, CC-BY-ND-4.0 and ZPL-2.1 survive, that the status is kept and that a second trip changes nothing.',
"C125": "False for two cases, proved as such: CC_BY_NA_SA is stored as 'CC BY-NC-SA', which is refused afterwards, and the default 'CC BY 4.0' used for None and '' is refused. Proved for every other text: acceptance, idempotence and independence of separators. str.replace chains and the SPDX list are modelled in full.",
"C74": 'Proved for all sequences of runs: comparison is an equivalence, every channel is held by an epoch that agrees with it, lists its run and spans its times, nothing in an epoch is made up, and epochs follow each other if the runs do. Refuted: the response is not compared, so the filters of a later run are lost; and runs stored out of order make epochs overlap.',
"C126": 'Proved for channels whose own comments list no runs. Refuted without that: comments read from StationXML list all runs of the epoch, so after changing one run both epochs list both. Also proved: a listed run that no longer exists raises AttributeError. Times of the channel become those of the run.',
"C127": 'False of the code: the first channel makes the only run, and later epochs outside its times are dropped silently. Proved: exactly which channels each run gets.',
"C128": 'Proved for fields put together as components along the channel directions, for any azimuths that are not parallel, with uniqueness of the tensor. For sensors that record projections (magnetometers, electric lines) proved when both pairs are orthogonal (C128_partial) and refuted otherwise (C128_refuted): the transpose is used where the inverse would be needed. Exact numbers; matrix inverse as in NumPy.',
"C130": 'Refuted: the data set holds the turned transfer functions but write puts them under the unturned azimuths, so the next read turns them again (C130_twice: by twice the angle). Proved when the azimuths are 0 and 90 (C130_partial).',
"C131": 'Proved for files with a vertical channel (five and seven channels). Refuted without (C131_refuted): one matrix element is assigned twice and another stays zero, so the impedance is wrong. One frequency; exact complex numbers.',
"C132": 'Refuted without a vertical channel: elements of the cross powers are assigned twice. Proved for files with one. Exact numbers, one frequency.',
"C133": 'Proved for phases within 90 degrees of zero; C133_general_partial says what comes out otherwise. Refuted: phases beyond 90 degrees come out turned by half a circle, and the yx element stays zero unless the mean phase is between 0 and 90 degrees, so the phases of the third quadrant that are usual for it are lost.',
"C134": 'Proved for at least two frequencies; the printing of numbers is a parameter of which only Faithful is assumed. Refuted: with ascending frequencies the angles are not turned around with the rest; one frequency raises IndexError on reading. Variances of a tipper that is zero are not written. No apparent resistivities, spectra or nan.',
"C135": 'Refuted in full: transfer_function_model_error cannot be assigned (KeyError, no entry in the channel dictionaries), and errors are not returned while the data are zero. Spec.step says which exceptions are raised: also AttributeError when a zero covariance is assigned while the other is set. xarray by its documented behaviour; float rounding and attributes of arrays not modelled.',
"C136": 'Refuted for the periods [1], which the code takes for a default: all arrays are cleared. Proved otherwise.',
"C137": 'Assigned errors are overwritten. Exact numbers.',
"C138": 'Proved as equality with the assignment of the array with rows and columns put in order. Refuted for objects of one period without impedance and tipper: they start anew, so that a residual covariance is lost when the signal powers are assigned.',
"C139": 'Refuted: the labels of the data set are not renamed; proved what happens instead with entirely new names and on default objects.',
"C140": 'Files without apparent resistivities and phases (C133) and without spectra (C131); reading of numbers is a parameter. At least two frequencies. Arrays are turned around, without the angles, if the frequencies ascend.',
"C141": 'Conditions: at least one period; the name of the station is without the words of the header (C142); at least two channels, with different numbers from one on; the counts in the header are right; levels below ten million; the matrices are Hermitian (only the lower triangle is written). The formats are parameters: each prints one word of digits, signs, points and the letters of exponents, nan and inf; >12.4E leaves a blank in front (values below 1E+100); rounding commutes with the sign.',
"C142": 'Refuted. A file for a station such as number1 cannot be read again, as each channel line holds the name and is taken for the line of counts (also: station, coordinate, orientations, **, and period, which cuts the blocks); the part of a name from a second colon on is lost. Channels without number are numbered from zero on writing while a zero is read as the last number, so that the transfer functions come back between other channels. Proved for names without these words and numbered channels.',
"C143": 'Conditions: the header lines begin with # or >, latitude, longitude and elevation are named in it (C148); lines of numbers hold none of the letters l, z, t, r and at least four words; the resistivities are behind (C150). Floats are parameters: str and float agree for all but nan and -999, zero is printed 0.0. That a header can be read is C144.',
"C144": 'Conditions: names and values are words without equals signs and commas, no name twice in one line, and no comment line contains lat, lon or elev (C148). Values are kept as given to update_attribute; conversions by pydantic are not modelled.',
"C145": 'Refuted: header.py L226 takes the text in front of the equals sign for the number, so that every position is zero, which is what is proved (C145_partial) for any file of the form of C143.',
"C146": 'Refuted: the texts of the periods are sorted, so that 10.0 comes before 2.0; the values follow their periods (C143). Proved: the texts increase.',
"C147": 'Refuted: of indices= 1 2 3 only the first is read; that only the first is read is proved for any list.',
"C148": 'Refuted: the first line with lat, lon or elev in it is rewritten, so that a file name such as /data/long/mt01.txt and what follows it in the line is lost; a file without a longitude line of a station such as Colonia cannot be read. Proved: if no comment line contains these words, the comment lines are kept.',
"C149": 'Refuted: without a time step in the header the sample rate is a division by zero. Proved for files with a time step.',
"C150": 'Refuted: reading ends at the first block of resistivities, even if the impedance is behind it; tippers are ignored if there is only the second; an empty line after rows raises an error. Proved for blocks in front of the resistivities.',
"C151": 'Any table; hypotheses: a direction up or down, components beginning with z known.',
"C152": 'Floats are real numbers.',
"C153": 'Refuted: the error is the root of p percent times the magnitude, so that an error of one percent of the resistivity becomes ten percent of the impedance; the error of the phase in the file has no influence. That formula is proved.',
"C154": 'Refuted: the error of the tipper is its own magnitude, whatever the errors in the file; proved, together with the values of the tipper.',
"C155": 'Refuted: $Rx.Cmp=Tzx raises, since the enumeration has txy and tyx in place of tzx and tzy; with a blank the name of the attribute is another one and is not checked. Both are proved for all components, and that a file with such a line cannot be read.',
"C156": 'Frequencies without repetition.',
"C157": 'Refuted: the error e comes back as the root of 2 e |z|; proved, with exactly when it is kept.',
"C158": 'Refuted for z positive up: the sign is changed when reading but not when writing; proved for both directions.',
"C159": 'C159_table, C159_arrays. Printing and reading of numbers are parameters: the texts are read as some rounding of the number and have no letters or signs that the file uses. Components are written without blanks at the ends and without equals signs.',
"C160": 'Refuted: a header with smoothing None or with fewer than two angles is written to a file that raises when read. Proved: a file can be read exactly if smoothing is robust, normal or minimal, there are at least two angles and the unit is not blank; and the attributes that are read then.',
"C161": 'Refuted, and never true (C161_never): to_avg leaves the header as new, with smoothing None and without angles.',
"C162": 'Refuted: an object with a table, as after reading, writes that table whatever its arrays. Proved for objects without one.',
"C163": 'Refuted: names come back in small letters; proved for all names.',
"C164": 'Refuted: toZmag, as in the files, becomes the attribute to_zmag and leaves to_z_mag as it is; proved for the spelling ToZMag.',
"C165": 'Refuted: _has_channel looks at zxx whatever the component, so that components without these lines raise when zxx has them. Proved for the other cases.',
"C166": "Refuted: bounds of the object itself are taken the other way round if its periods descend, since only the others are sorted; proved for that case (C166_descending), for ascending periods (C166_partial), and that rows are never made up (C166_rows). xarray's slices and combine_by_coords are modelled from their documentation and code as remembered.",
"C167": 'Refuted: of several transfer functions with the same least period within bounds all but the last are left out without an error (C167_lost). Proved if the least periods are different: the result has exactly the rows that are wanted.',
"C168": 'Refuted: if the periods of the object descend, merging with any transfer function of several periods raises (C168_never). Proved for ascending periods of the object and any order of the others.',
"C169": 'Refuted as C167; proved if the least periods are different.',
"C170": 'Refuted: a transfer function in a dictionary is sorted in place. Proved: nothing else happens (C170_sorted), and nothing at all if those ascend.',
"C171": 'Refuted: a period at which two transfer functions meet is there twice. Proved: ascending if the periods of the object do, and without repetition if the parts have no common periods.',
"C172": 'As stated; copies are values.',
"C173": 'Refuted: errors are not compared (C173_errors), nor are periods if the numbers are all zero; an object of another class raises (C173_other). Proved: what equality does say, and that it holds then (C173_same). The comparison of metadata is a parameter.',
"C174": 'Refuted: a name with a suffix given as fn_basename is written in the format of file_type. Proved for full paths, names without suffix or with the one of the type, and for the name of the station if it is not empty.',
"C175": 'Refuted: J files cannot be written. Proved for the others.',
"C176": 'Refuted: a file with one period cannot be read (C176_single: TypeError). Proved for two and more periods. Printing and reading of single numbers is a hypothesis (Good): a format prints one word which is read as the rounded number.',
"C177": 'Refuted: zeros and missing numbers are written as 1e32 and read as 1e32 (C177_sentinel). Proved: arrays that were not given or are empty are read as zeros.',
"C178": 'Refuted: an array of zeros, as reading makes one for impedances that the file does not have, is written as 1e32 and appears as impedance. Proved: exactly the arrays that are given and have entries appear, so types are kept if all of those have a number that is not zero.',
"C179": 'Refuted: estimates of tippers are ignored if there is an array for impedances, be it zero or empty. Proved: exactly when they are listed.',
"C180": 'As stated.',
"C181": 'As stated; channels that were there twice stay there twice, otherwise each is there once.',
"C182": 'Refuted: repeated elements with nothing but text become empty dictionaries. Proved, with the order of the texts, if there are no lists of texts and no keys that become the same.',
"C183": 'Refuted: one without tippers or covariances cannot be made again from its object (ValueError, C183_missing), and residual covariances between electric and vertical magnetic field are not in the object. Proved if impedance, tipper and both covariances are there, all but these cross covariances, for errors that are roots of non-negative numbers.',
"C184": 'Refuted: the inverse signal power of the tippers, zero if there are none, is stored over that of the impedances. Proved: everything else, and which one remains.',
"C185": 'Refuted: hx, hy, ex, ey and hz are fixed names; other names raise a KeyError (C185_partial). The usual names are C184_partial.',
"C186": 'As stated; the object read into is new.',
"C187": 'Refuted: what the file does not have stays (tippers of the file before). Proved if the object had one period of one second, as a new one has, or if the file has all four arrays.',
"C188": 'Refuted: with two outputs the covariances are not stored. Proved for three outputs with covariances that are not zero.',
"C189": 'Refuted: an auxiliary channel of the first run raises a KeyError. Proved without a run and for runs with the five channels and channels of remote stations. Without data: UnboundLocalError (C189_empty).',
"C190": 'Refuted: with covariances of zero an AttributeError is raised (C190_zero). Proved otherwise.',
"C191": 'Refuted for every transfer function: the object has no periods (C191_never). Proved for the object with the periods assigned.',
"C192": 'Refuted: the declination is written under a name that is not read (C192_declination_partial: no header that is written gives one), a value with an equal sign loses its line and a greater sign ends the header (C192_signs_partial). Proved for all other attributes with plain values that their own validators keep.',
"C193": 'Refuted: a measurement with the default acquisition channel, which is empty, cannot be read (IndexError); a magnetic channel whose name has no h, as bx, has no measurement. Proved for acquisition channels that are words; an azimuth of zero of an electric channel is computed from the place of the electrodes.',
"C194": 'Refuted: a setting with an equal sign is cut. Proved for settings without, and measurements as in C193.',
"C195": 'Refuted: of three the second is lost. Proved: the first and the last that differs from it are kept, the latter as rr and the name.',
"C196": 'Refuted: measurements without identifier are numbered from 1 on, whether or not the number is in use. Proved: the order, that all are written, and different identifiers if none of the first numbers is in use.',
"C197": 'Refuted: a spectra section is not found when it is read; identifiers with leading zeros are changed. Proved for sections of impedances whose identifiers reading keeps.',
"C198": 'As stated.',
"C199": 'Refuted: a blank before the equal sign makes another attribute. Proved for all other blanks and the case.',
"C200": 'Refuted: names such as operator are changed when they are read and all others are put into lower case, a line with a smaller or greater sign is lost, a text in brackets becomes a list, and a text with words such as electrics makes the reader take the file for that of another program. Proved for all dictionaries without these.',
"C201": 'Refuted: a processing parameter with two words becomes two items, lists in comments and a text with the name of another program are read differently. Proved for sections without these.',
"C202": 'Refuted: the remote reference takes the place of the processing parameters before it. Proved for sections without it; the last value of every other name is kept.',
"C203": 'Refuted: a line with fewer than four words is not taken apart and its second value is lost. Proved for four words and more.',
"C204": 'Refuted: all names that are not known become one. Proved: every known name is kept, of the unknown ones the last; C204_sensors, C204_voltages.',
"C205": 'Refuted: a channel remains the channel after the next section header. Proved: every value is kept under the channel named last, and nothing else is kept; contact resistances and currents of magnetic channels, which are renamed, are left out.',
"C206": 'Refuted: of millivolts the volts remain, and a unit in brackets after a number of one digit remains. Proved for the signs of metres, volts, ohms and degrees, and brackets after longer numbers.',
"C207": 'Refuted: a filter without poles and zeros loses its normalisation factor. Proved for pole zero filters with a pole or zero or factor one, coefficient filters, delays of gain one, tables with small phases, and FIR filters whose gain is given at the normalisation frequency.',
"C208": 'Refuted: a comment is put into the stage as an object, which is refused when it is read. Proved without comments; a filter that decimates has its sample rate appended to its name, anew with every passage.',
"C209": "Refuted: a delay with a gain becomes a coefficient filter. Proved for the filters of the statement; the frequency of a FIR filter's gain becomes the normalisation frequency.",
"C210": 'Refuted: the product of the gains is written, whatever the response. Proved: it is that product to 16 digits, nothing is written when it is zero (OverflowError), and it is the amplitude for coefficient filters of positive gains.',
"C212": 'Refuted: names that differ in capitals only. Proved: one filter for every different name in small letters.',
"C213": 'Refuted: only the rounded amplitude at 1 Hz is compared. Proved: the name is new when no filter of the type has that amplitude and the names containing the type are numbered below 99; delays and FIR filters raise a TypeError when there is one of the type already.',
"C214": "Refuted: the units of the channel are not written. Proved: after reading they are those of the last filter's output.",
"C215": 'Refuted: angles are taken modulo 360. Proved: the direction is kept.',
"C216": 'Refuted: only the positive electrode is written. Proved: its position is kept, the negative one gets the same.',
"C217": 'Refuted: the date of processing becomes the creation time of the provenance. Proved for all others, for names that are not those of other things; none is added but the name of the station.',
"C218": 'Refuted: names of parameters become lower case and lose what is before a dot. Proved for parameters name=value with plain names.',
"C219": "Refuted: there is always one run, the station's name followed by a. Proved: exactly this.",
"C220": 'Refuted: a slash in the name becomes an underscore. Proved for names without one and one-word reference frames; a station without geographic name gets that of the survey.',
"C221": 'Refuted: where the software has no name it gets that of the submitter. Proved for all that has a value.',
"C222": 'Refuted: the provenance of a run is taken for an attribute of the station and raises AttributeError. Proved for names that are not those of other things; a parameter without = raises ValueError always.',
"C223": 'Refuted: the type of the electrodes becomes that of the channel. Proved for names without .type that no other channel has.',
"C224": 'Refuted: only the sensor is read, its type becomes that of the channel, and the sensor of rrhx is taken for that of hx. Proved for the other attributes of the sensor without remote channels.',
"C225": 'Refuted: a survey without an author gets that of the station. Proved for all that has a value, and what is read for those without.',
"C226": 'Refuted: runs without sampling rate are left out. Proved for the others; a station without runs gets one named after it.',
"C227": 'Refuted: the name of the sensor becomes the component. Proved for id, manufacturer and type unless a run has one magnetometer only; then hx, hy and hz all get its sensor. Channels behind one of a long period system are lost.',
"C228": 'Refuted: the negative electrode gets manufacturer and type of the positive one. Proved for the ids, the positive electrode and the length.',
"C229": 'Refuted: all runs get the places of the last run that has the channel. Proved: exactly this, the translated azimuth before the measured one, the length of the dipole as second place if all places are zero.',
"C230": 'Proved in both directions, for comments that change nothing but comments.',
"C231": 'Refuted: only the last comments under comments.author, comments.value and errors are left. Proved: exactly these; a comment with an unknown dotted name makes the conversion fail.',
"C232": 'Proved in both directions, for comments that say nothing of field notes, data loggers and the processing and do not name site.survey or emtf.sub_type. Station ids with _ and data types such as AMT, which are valid for stations, fail.',
"C233": "Refuted: comments of the station such as 'site.name: x' change other attributes, and processing parameters change those of the processing. Proved: exactly this, for 34 attributes and the data type; None becomes an empty text or 0.0 for some.",
"C234": 'Refuted: the id becomes the geographic name. Proved: exactly what becomes of the attributes; without a country there is one with an empty name.',
"C235": 'Refuted. Proved: they become the description, three file attributes and the words about data quality, with what the comments of survey and station said of them.',
"C236": 'Refuted. Proved: they become what was said of the copyright, with standard conditions of use and release status.',
"C237": 'Refuted. Proved: there is one remote reference, the id of the remote site in the processing parameters or else an empty text.',
"C238": 'Refuted. Proved: those of the remote site and its field notes remain, in the order of the names; others are lost.',
"C239": 'Proved for the same comments as C232; a comment emtf.product_id of the station replaces it.',
"C240": 'Proved in both directions; without a sampling rate writing fails with AttributeError, without name or type of a dipole with TypeError.',
"C241": 'Refuted: a run without a text for errors has no element for it, and reading stops there: it and all later runs are missing. Proved: exactly what is read: the runs before it, without the models of instruments, with comments of electrodes as their value, texts as in C243; a dipole with exactly one electrode cannot be read.',
"C242": 'Refuted: on each side the magnetic channels come first. Proved: exactly this, all channels are read.',
"C243": "Refuted: ampersands are replaced by 'and' before the file is parsed, so that escaped characters come back as letters. Proved: a text comes back unchanged exactly if it has no &, < or > and, before Python 3.13, no quotation marks.",
"C244": "Refuted: the runs from the first on whose comments do not say 'errors: ...' are lost. Proved: exactly the runs before it are read, with what files keep of their ids and data loggers; if there are none, one run with the id of the station and 'a' is made up. For comments whose names change nothing but comments; what becomes of channels is C242 with C228-C230.",
"C245": 'Proved: the lists are assigned before the channels and make place holders, all of which are replaced.',
"C246": 'Refuted: a channel removed from a run of the station is in channels_recorded, and reading the dictionary puts it into the first run again. Proved: exactly the same runs if channels_recorded names channels of the runs only (in particular for stations to which runs were added); otherwise no run and no channel is missing, and only the first run can have more.',
"C247": 'Proved, with attributes changed by a dictionary as a parameter (C80, C81).',
"C248": "Refuted: applied filters have names in lower case with slashes as ' per ', the survey has the names themselves (list) or in lower case (dictionary); filters not found are left out. Proved: all filters are found if the names have neither slash nor capital letter (list) or no slash (dictionary); any other filter is in no response after the survey was given a list or was read from its dictionary.",
"C249": 'Proved.',
"C250": 'Refuted: a file name given as text is itself read as JSON. Proved: a text that is not the name of a file is read, a Path is read; a Path without a file ends in an UnboundLocalError.',
"C251": 'Refuted: run_list keeps the order in which runs were added. Proved: it has the same ids.',
"C252": 'Refuted: the lists of recorded channels keep the old names, and the next assignment makes channels of these names. Proved: the keys and the changes returned by update_channel_keys; exactly which channels there are after the next assignment (no renamed channel is lost); nothing is added when channels exchange names.',
"C253": 'Proved.',
"C254": 'Proved. A station named 0 is updated instead of added, see C84.',
"C255": 'Refuted: a TF that has read a file keeps the station of that file. Proved: the first station stays, unchanged if the survey has none of its id, unless it is the station 0 of a new TF; all stations after a survey with other stations.',
"C256": 'Refuted: the first run the TF had becomes the first run of the given station. Proved: exactly the runs of the station if that run is the run 0 of a new TF; otherwise exactly which runs there are; a station without runs gets run 0 with five channels.',
"C257": 'Proved, with channels_recorded up to date and channels in every run where runs are kept.',
"C258": 'Refuted: the station is kept under its old name. Proved: the id of station_metadata is the name; a new TF that got a name keeps its empty station when a survey is read.',
"C259": 'Refuted: the setter reads an attribute component that no TF has. Proved: it raises AttributeError for all runs, unless the user gave the TF such an attribute.',
"C260": 'Refuted: a band inside another. Proved: each list alone, the error if an index is missing, and the whole for bands of which none is inside another, overlapping or not.',
"C261": 'Proved for every sorting method that gives a sorted order.',
"C262": 'Proved.',
"C263": 'Proved for bands closed on the left, the default.',
"C264": 'Proved. What Band.from_dict makes of a dictionary is a parameter.',
"C265": 'Refuted: two poles or zeros raise ValueError, one vanishes, and an array with a zero in it is not written. Proved: exactly these failures, and that every written field comes back when the complex arrays have the right length already (always for filters without poles and zeros).',
"C266": 'Refuted: arrays raise ValueError, so no pole zero filter can be written. Proved: written exactly when no array is among the written fields, with one element for each written field.',
"C267": "Proved. Python's float of a text is a parameter; digits are 0-9.",
"C268": 'Refuted: (1+2j) gives the two numbers 1 and 2. Proved that it always gives these two.',
"C269": 'Refuted: 1.e+05 gives 1 and 5. Proved that it always gives these two.',
"C270": 'Refuted: offsets, geomagnetic model, comments, the fraction of the epoch and the angle of a layout that is not orthogonal are lost, and an end before the start becomes the start. Proved: exactly what is read, field by field, for every admissible site.',
"C271": 'Refuted: names with a blank are cut. Proved: names without blanks, commas and brackets come back; without commas and brackets the list read is the joined text cut at every blank.',
"C272": 'Refuted: any unknown child raises AttributeError, empty or repeated comments of the data quality notes end the reading, and so does a missing or repeated Site. Proved for all such elements.',
"C273": 'Proved, with a site for which the first reading is not yet the last. Printing and rounding of numbers are parameters (rounding twice is rounding once).',
"C274": 'Refuted: runs, year, layout, numbers of the data quality and comments that the second file does not have are those of the first, and an orthogonal layout does not replace another one. Proved: exactly what is there after reading into any site, and that it is as in a new object when the file has all of these and both layouts are orthogonal.',
"C275": 'Refuted: several attachments are appended to those of earlier files, and a single one is not written any more. Proved: exactly what a reading does; for a new object the claim; by induction what any sequence of files leaves.',
"C276": 'Refuted: a write without identifier removes the remote site from all later files, and a write without field notes the remote field notes. Proved by induction over all sequences of writes: exactly what each file has; the first write is as claimed.',
"C277": 'Refuted: the version of the software, a remote reference with the name of a type of values, and runs after one without a text for errors or with a single electrode are lost (without an exception). Proved: exactly what is read, into any object, and which information can be written.',
"C278": 'Refuted: only files that mention one of hx, hy, hz, ex, ey are listed, of several that mention the same the first, and a file that mentions two (also in the name of its run) twice. Proved: everything listed is below its own run and station; the runs are all, in order; exactly which channels are listed; all of them once each if the files are named after the run, a type and different components of the five, none of which is in the name of the run.',
"C279": 'Refuted: channels have no attribute `filter`, so that any channel raises AttributeError. Proved: an experiment is made exactly if no listed run has a listed channel.',
"C280": 'Full.',
"C281": 'Refuted: for files of the same name in two directories the first is used twice. Proved if the names are different, and that always the first file of a name is used.',
"C282": 'Refuted: the name and the FDSN code come back as the name in capitals, who acquired the station does not come back, the period is extended to the runs. Proved: exactly what comes back of every field; stations for which this is the same; a colon in the author, name or version of the software makes the file unreadable. Comments of runs and channels are not modelled here (C116, C117).',
"C283": 'Refuted: a missing FDSN code becomes the name, and a missing organization a blank if somebody acquired the station. Proved: that this is all, that a second writing gives the same and changes nothing, and that the FDSN code is never written.',
"C284": 'Full.',
"C285": 'Refuted: the name comes back as the identifier, the comments are lost, the leader of the project only comes back with an organization, and the DOI is changed (C286). Proved: exactly what comes back of every other field. The licence is what Model/License makes of it.',
"C286": 'Refuted: no survey keeps its DOI: one that has a DOI gets the address in front of it once more, one that has none gets https://doi.org/None. Proved: exactly this, and that the address is repeated with every translation.',
"C287": 'Refuted: a survey with the DOI of a journal cannot be read (the colon of its address makes the comment a dictionary), nor one whose leader has an organization and no e-mail address. Proved: all others can.',
"C288": 'Refuted: the code is always replaced by that of the survey, also if this is missing. Proved: that the argument has no effect.',
"C289": 'Proved for all stored times. pandas.Timestamp.replace is modelled from its documentation, nanoseconds outside 0..999 and values that are not integers are left out.',
"C290": 'Refuted: on the way from 31 January to 1 February there is 31 February. Proved: from the first 28 days of a month every date is reached and nothing else changes; the month cannot be assigned while the day does not exist in it.',
"C291": "Refuted: add_filter(name='A') twice gives two filters of the name a, one of which is lost. Proved: they survive exactly if the names are different and every filter has a stage; in general the first of every name survives.",
"C292": 'Refuted: filters given as a text replace those of before. Proved for lists and for both old formats, and that after a text nothing else is left.',
"C293": 'Refuted: a name with a slash in an old format is added once more each time. Proved for all lists and for old formats without a slash.',
"C294": 'Refuted: every filter becomes one without a name and stage, as the dictionary is wrapped in applied_filter. Proved: exactly this, and that filters, dictionaries that are not wrapped and texts are understood. The parsing of texts is a function of the world.',
"C295": 'Proved for the lists and for the texts of lists; what pydantic takes for a boolean is modelled.',
"C296": 'Refuted: MTSchemaError. Proved: the numbers have to agree in every case, and for one name the value is used.',
"C297": 'Proved over the complex numbers; rounding is not modelled, a division by zero gives 0 as in the code.',
"C298": 'Proved for any function in the place of scipy.signal.coherence.',
"C299": 'Refuted: for a series shorter than the window one raises IndexError, the other UnboundLocalError. Proved equal whenever a window fits, and that both raise otherwise.',
"C300": 'Refuted: a window of four samples gets an empty sub-window from the default fraction. Proved: it has samples exactly if window times fraction is at least one, and all the rest; the fraction is an exact number.',
"C301": 'Refuted: a channel rrhx without a remote station is left without a station, only a message is logged. Proved with a remote station, and exactly when it fails without one.',
"C302": 'Proved.',
"C303": 'Proved by induction over the wrapping.',
"C304": 'Refuted: an object inside one dictionary becomes a plain Feature. Proved for the object as it is; and what becomes of a wrapped one.',
"C305": 'Refuted: the stations of a list keep their mark. Proved for single stations and dictionaries, and what becomes of lists and texts.',
"C306": 'Proved.',
"C307": 'Refuted: when the stations come from the data set the engine is changed before the remote station is read. Proved with a remote station beforehand.',
"C308": 'Proved; validation is a function of the world of the path and the value.',
"C309": 'Proved for all names, those that raise included.',
"C310": 'Refuted: a missing last attribute is made. Proved: it raises exactly if an object on the way is missing.',
"C311": 'Refuted: a missing last attribute is None. Proved: exactly what is returned or raised.',
"C312": 'Refuted: the method is empty. Proved: it changes nothing, and the helper does what update_attribute does.',
"C313": 'Refuted: the separator is not passed on, so a second one is taken for part of a name. Proved for at most one separator.',
"C314": 'Proved; the two decimals of the written lines are left out; the number from 0 on.',
"C315": 'Proved over the reals, with the principal value of the argument.',
"C316": 'Refuted: a translated azimuth not given is read as the direction of the electrodes. Proved: all else is as it was.',
"C317": 'Refuted: the measured azimuth is replaced by the translated one, or 0 if there is none, and the tilt is not read. Proved: exactly what is read.',
"C318": 'Refuted: a translated azimuth not given becomes 0. Proved: it is the only change.',
"C319": 'Refuted: an auxiliary channel with an e in its name raises AttributeError; of bx no measurement is made. Proved: exactly which channels are accepted.',
"C320": 'Refuted: the date subtracted loses its time of day. Proved: the difference is the days and that time of day.',
"C321": 'Proved for dates that are not at the limits of the range.',
"C322": 'Refuted: the time of day is not written, but compared. Proved: midnight of the same date is read; equal exactly for dates at midnight in UTC.',
"C323": 'Refuted: without a dipole of that name the last dipole is changed and the new one is put among the magnetometers. Proved: a dipole named in lower case is changed and nothing else, a name with capitals raises ValueError, and exactly what happens to names that are not there.',
"C324": 'Refuted: a magnetometer without a name takes the value and stays without a name. Proved: a magnetometer named in lower case is changed and nothing else, a new one is made if all have other names, a name with capitals raises ValueError.',
"C325": 'Refuted: the x of hx goes to the first output channel, usually an electric one. Proved: exactly which output channel is changed, and that none raises IndexError for hx and hy.',
"C326": 'Refuted: without a channel of that name the first channel is moved. Proved: a channel of that name is changed and nothing else, and exactly what happens otherwise.',
"C327": 'Refuted: both electrodes are given the manufacturer and model of the positive one. Proved: exactly what is read, and that the claim holds exactly for electrodes of one manufacturer and model.',
"C328": 'Refuted: a type the library does not know, such as fluxgate, raises ValueError. Proved: the claim for the types it knows, Bartington becomes magnetometer, every other type raises, and without a type nothing of the sensor is read.',
"C329": 'Refuted: the name is appended to the model. Proved: exactly what is read, that the model grows by a word each time, and which types raise ValueError.',
"C330": 'Proved for all sensors; only the type can change, and only one that is missing or Bartington.',
"C331": 'Refuted: no description raises AttributeError, a blank one IndexError. Proved: exactly what happens.',
"C332": 'Refuted: it is rounded to three decimals, so it is 0 for low frequencies. Proved: it is the rounded geometric mean of the band, which lies in the band, and 0 for bands below half a millihertz.',
"C333": 'Refuted: the response is made without frequencies. Proved: it is always 0, and found once frequencies are assigned.',
"C334": 'Refuted: once found it is kept. Proved: it is kept whatever is assigned after; while it is 0 it is looked for; assigning 0 finds it again.',
"C335": "Refuted: the default of a required text without one is 'none' and None in turn (also proved). Proved for attributes that are not required and for defaults that are values where texts are not lists.",
"C336": "Refuted: for required attributes that are true or false a variable is not bound, since the type is called 'boolean' and looked for as 'bool'. Proved for texts and numbers.",
"C337": 'Refuted: defaults of attributes that are not required are dropped, always. Proved for required attributes.',
"C338": 'Refuted: numbers for booleans stay numbers, also proved; texts for lists and dictionaries are lost. Proved for all texts.',
"C339": 'Refuted: blanks are taken off after the comparison. Proved for texts without blanks.',
"C340": 'Refuted: options come back with quotes. Proved for attributes that are not required: exactly the quotes at the ends of options and aliases are added.',
"C342": 'Refuted: the description returned for unknown names has no aliases and is never accepted. Proved for attributes that are not required.',
"C344": 'Refuted: a required number with a vocabulary and no default is a text first and a number later. Proved for attributes that are not required, with a value as default, or texts without one.',
"C345": 'Refuted: with a zone it is refused. Proved: without a zone if the next day is in 1900 to 2200; otherwise the limits of times are returned, also for times that could be represented.',
"C346": 'Refuted: they are times of the next day, also proved; larger hours are refused.',
"C347": 'Refuted: month and day are exchanged if that gives a date. Proved: exactly then, for 1900 to 2200 without a zone; refused if not.',
"C348": "Refuted: 'null' is refused, since the time put for it has a zone. Proved: which words are read, all others are refused.",
"C350": 'Refuted: it is 1980. Proved: ranges a-b are the first year, other texts are the year of the time that they are, without the element the year stays.',
"C351": 'Refuted: the default dictionary is shared, names written through one object are those of all later ones. Proved: the names are those of the default dictionary at that time; they are the standard ones if it was not written to.',
"C352": 'Refuted: missing names are added to it. Proved: exactly these; complete dictionaries stay.',
"C353": 'Refuted: writing to the dictionary changes no names in use. Proved for all programs without writing and without exceptions, with shared dictionaries.',
"C354": 'Refuted: the names before the missing one are taken, and the dictionary is. Proved: exactly these.',
"C355": 'Refuted: templates are kept by the items of the dictionary and made with the names in use, which can differ (C353). Proved for programs without writing and exceptions if names and periods are not both given; with periods the data set has the default names.',
"C356": 'Refuted: the data set stays as it was. Proved: a new data set has the names.',
"C357": 'Refuted: the inverse is kept from the first time on. Proved: the first time; later it never changes.',
"C359": 'Refuted: with doi: before it, every doi: in the DOI is removed. Proved: without one in it, and for links always.',
"C361": 'Refuted: without estimates (data without errors) reading the file raises TypeError. Proved: exactly then; other lists are read as written.',
"C362": 'Refuted: for data that are zero reading the file raises TypeError. Proved: exactly then; other lists are read as written with symbols of units, or not at all if a symbol is not known.',
"C363": 'Refuted: a citation without title, authors, year and survey DOI is read as None and refused. Proved: exactly then, also for the citation of a survey.',
"C364": 'Refuted: journal, volume, pages and the other DOI are not written. Proved: exactly what is read; plain texts, years and DOIs without & come back.',
"C365": 'Refuted: texts that the later file does not have stay. Proved: exactly these; with all texts there is no difference.',
"C366": 'Refuted: an array with two or more names raises ValueError. Proved: lists always, texts unless there are no names (the empty text is one empty name) or the text is a word for none; exactly which arrays are refused.',
"C367": 'Refuted: with an electric name the magnetic and auxiliary names are lost, since add_channel clears the lists. Proved: exactly the channels of the first list that is not empty.',
"C368": 'Refuted: without a new name the list stays as given, so an empty list is held while the channels stay. Proved: exactly what is there afterwards.',
"C369": 'Refuted: the names before the one that is refused have channels. Proved: when names are refused, and what is left then.',
"C370": 'Refuted: the index is one of the sorted names, channels are stored in the order of adding. Proved: it is the number of channels with smaller names.',
"C371": 'Refuted: 5.9 is held as 5, and -0.5 as 0. Proved: integers exactly; other numbers towards zero; infinite ones raise OverflowError.',
"C372": 'Refuted: negative indices are left out silently. Proved: exactly these; texts never raise.',
"C373": 'Refuted: a name with a comma is two names. Proved: exactly then; lists are taken as they are.',
"C374": 'Refuted: the fingerprint has the fields of the class itself, while the file has those of its parts too: after an update of a part the old description is given. Proved: for any set of versions this is so if and only if equal fingerprints mean equal descriptions; so it is with one version, or without files.',
"C375": 'Refuted: of two classes that have each other the second is held with an empty part. Proved for classes that are not made of themselves, over all histories.',
"C376": 'For names that are not empty, have no dot and are distinct, as those of attributes of a class are. Also for what a class that is asked for says.',
"C377": 'Refuted: write removes the parts from the order of the object for ever. Proved: exactly which parts are written, over all histories; the claim for the first file.',
"C378": 'All elements but these, in their order.',
"C379": 'Refuted: the range has six digits and is rounded to the nearest, the periods have thirteen. Proved: exactly when it has them (rounding keeps the order), and the range to five parts of a million.',
"C380": 'Refuted: write does not look at the periods, so periods given to an object leave the range as it was. Proved: after reading, whatever range the file says.',
"C381": 'Refuted: channels of a file read before stay, and one with the same number hides another one. Proved: the claim if the file has all channels of those before; exactly which channels are recorded.',
"C382": 'Refuted: the periods of files read before count too. Proved: the claim if the file has all periods of those before (the median does not depend on the order).',
"C383": 'For files in which no two periods have the same text.',
"C384": 'On a heap of objects: nothing the copy can reach was there before; interleaved assignments do not interfere.',
"C385": 'Refuted: mth5_type of the object and an empty hdf5_reference are put over the update. Proved: all other names, exactly these two, and that an object with an HDF5 reference is rebuilt and drops names it does not have.',
"C386": 'Refuted: parts are shared. Proved: attributes of the copy itself are its own, all others lead to the parts of the object.',
"C387": 'Refuted: items are not copied. Proved: every item of b is the same object in both; the rest of a stays; the list of b stays.',
"C388": 'Refuted: a channel that differs from that of a file before is taken for a remote channel. Proved: a channel is that of the first file that has it, for ever; which line becomes the remote channel; the claim for channels no file before had.',
"C389": 'Refuted: a position read before stays, so that the reference is not asked. Proved: the claim for a header with a position and for objects without one; what is taken in the other cases.',
"C390": 'Refuted: it is never unset. Proved: it is set if and only if one of the files read was in the Phoenix format.',
"C391": 'Refuted: the component zxx of a file before stays, which decides where everything is taken from. Proved: the claim if the file has all components read before; the instrument is that of the last zxx read; which channels there are.',
"C392": 'Refuted: whether a component is there is asked of zxx always. Proved: over all histories, exactly when there is a run, as to components (errors about values within a component are not modelled).',
"C393": 'Refuted: hz is never given a value, since lines with commas are held as lists and a comma is looked for in them. Proved: this for all lines; the claim for hx and hy; what they are given from a line with one value.',
"C394": 'Refuted: parameters the file does not give stay. Proved: a parameter is the last one given in any file read; the claim for parameters the file gives; blocks and angles are those of the file alone.',
"C395": 'Refuted: header and station are those of the file that could not be read, data those of another. Proved: the data stay, over all histories they are those of the last file read to the end; what else is taken from such a file.',
"C396": 'Refuted: attributes are missing if the first table is short. Proved: there are all lines if and only if the remainder of their number has room in the first table, then each once; always so with the defaults.',
"C397": 'Refuted: options are added to the stored descriptions. Proved: the dictionary after any number of calls; a dictionary without options stays.',
"C398": 'Refuted: texts are cut to the widths of columns. Proved: number and order of rows; a value is kept if and only if it is short enough, else it is its beginning; when two attributes have the same name.',
"C399": 'Refuted: fields after one that is not valid are missing. Proved: exactly which entries there are; they are those of their classes if names are different; classes whose fields are valid are complete whatever the others. Validation itself is in Schema.',
"C400": 'Refuted: with arrays no file is written, and other forms without a file raise. Proved: when a file is written, when an error is raised, and that the form is right otherwise.',
"C401": 'Refuted: names of members are shown, but values are taken, for instance for release states. Proved: when each option is taken, when all that is taken is shown, and that fields that may be None show none.',
"C402": 'For the annotations that occur, with names of classes in lower case.',
"C403": 'Refuted: covariances of spectra stay when impedances are read, angles stay when spectra are read. Proved: each of the data is that of the last file that gives it, for all sequences of files whose sections say what they are, and errors do not depend on files before.',
"C404": 'Refuted: kind and first line of data stay from the file before. Proved: where the data begin and what they are taken for, in each case.',
"C405": 'Refuted: the order of channels is fixed by their number alone. Proved: the columns are right if and only if the section has that order; other numbers of channels cannot be read.',
"C406": 'Refuted: a first run without channels is replaced by a new one, with all it had. Proved: exactly when the runs stay, what they are otherwise, and that data and names stay.',
"C407": 'Refuted: with names of channels other than the standard ones a second conversion raises KeyError, and tippers assigned after a first conversion are left out of later ones. Proved: exactly when a second conversion succeeds and what it gives; no difference if the first run has channels.',
"C408": 'Refuted: values that are None or empty are not written, so what was there stays. Proved: what each field is afterwards; all values that say something arrive; fields of the transfer function stay.',
"C409": 'As in Metadata, without runs and comments with an author.',
"C410": 'Refuted: a filter added to the list in place is not looked at. Proved: the claim for all histories of assignments; after each assignment that succeeds the units are right; which lists are taken and that an error changes nothing; an empty list leaves the units; when units assigned are kept.',
"C411": 'Refuted: the dictionary is that of the object, but the summaries in it are shared by all objects of the class and of classes with fields of the class. Proved: the names stay; the claim for summaries that are not shared, and if none is changed; when a summary that is changed is seen; a dictionary that was emptied is made anew.',
"C412": 'Refuted: the validator looks for the link in info.data, which has the other fields only (trusted: pydantic). Proved: empty values always empty the link; what is taken and what is an error; the link after any history.',
"C413": 'Refuted: values of other types become None. Proved: the claim for texts, links and None; which texts say nothing.',
"C414": 'Trusted: numpy; amplitudes finite. The place of the band is proved below 2000 increasing frequencies (no decimation of the frequencies).',
}
