/-!
# Holiday tables, copied from the repository

Generated from quantlib/src/time/constants.rs and quantlib/src/time/calendars/southkorea.rs (numbers only).
-/
set_option autoImplicit false
namespace Verif.QL

/-- `EASTER_MONDAYS[0]`, headed "WESTERN EASTER MONDAYS", years 1901-2199 (quantlib/src/time/constants.rs 2-37) -/
def easterMondays0 : List Nat := [
  98, 90, 103, 95, 114, 106, 91, 111, 102, 87, 107, 99, 83, 103, 95, 115, 99, 91, 111, 96,
  87, 107, 92, 112, 103, 95, 108, 100, 91, 111, 96, 88, 107, 92, 112, 104, 88, 108, 100, 85,
  104, 96, 116, 101, 92, 112, 97, 89, 108, 100, 85, 105, 96, 109, 101, 93, 112, 97, 89, 109,
  93, 113, 105, 90, 109, 101, 86, 106, 97, 89, 102, 94, 113, 105, 90, 110, 101, 86, 106, 98,
  110, 102, 94, 114, 98, 90, 110, 95, 86, 106, 91, 111, 102, 94, 107, 99, 90, 103, 95, 115,
  106, 91, 111, 103, 87, 107, 99, 84, 103, 95, 115, 100, 91, 111, 96, 88, 107, 92, 112, 104,
  95, 108, 100, 92, 111, 96, 88, 108, 92, 112, 104, 89, 108, 100, 85, 105, 96, 116, 101, 93,
  112, 97, 89, 109, 100, 85, 105, 97, 109, 101, 93, 113, 97, 89, 109, 94, 113, 105, 90, 110,
  101, 86, 106, 98, 89, 102, 94, 114, 105, 90, 110, 102, 86, 106, 98, 111, 102, 94, 114, 99,
  90, 110, 95, 87, 106, 91, 111, 103, 94, 107, 99, 91, 103, 95, 115, 107, 91, 111, 103, 88,
  108, 100, 85, 105, 96, 109, 101, 93, 112, 97, 89, 109, 93, 113, 105, 90, 109, 101, 86, 106,
  97, 89, 102, 94, 113, 105, 90, 110, 101, 86, 106, 98, 110, 102, 94, 114, 98, 90, 110, 95,
  86, 106, 91, 111, 102, 94, 107, 99, 90, 103, 95, 115, 106, 91, 111, 103, 87, 107, 99, 84,
  103, 95, 115, 100, 91, 111, 96, 88, 107, 92, 112, 104, 95, 108, 100, 92, 111, 96, 88, 108,
  92, 112, 104, 89, 108, 100, 85, 105, 96, 116, 101, 93, 112, 97, 89, 109, 100, 85, 105]

/-- `EASTER_MONDAYS[1]`, headed "ORTHODOX EASTER MONDAYS", years 1901-2199 (quantlib/src/time/constants.rs 38-70) -/
def easterMondays1 : List Nat := [
  105, 118, 110, 102, 121, 106, 126, 118, 102, 122, 114, 99, 118, 110, 95, 115, 106, 126, 111, 103,
  122, 107, 99, 119, 110, 123, 115, 107, 126, 111, 103, 123, 107, 99, 119, 104, 123, 115, 100, 120,
  111, 96, 116, 108, 127, 112, 104, 124, 115, 100, 120, 112, 96, 116, 108, 128, 112, 104, 124, 109,
  100, 120, 105, 125, 116, 101, 121, 113, 104, 117, 109, 101, 120, 105, 125, 117, 101, 121, 113, 98,
  117, 109, 129, 114, 105, 125, 110, 102, 121, 106, 98, 118, 109, 122, 114, 106, 118, 110, 102, 122,
  106, 126, 118, 103, 122, 114, 99, 119, 110, 95, 115, 107, 126, 111, 103, 123, 107, 99, 119, 111,
  123, 115, 107, 127, 111, 103, 123, 108, 99, 119, 104, 124, 115, 100, 120, 112, 96, 116, 108, 128,
  112, 104, 124, 116, 100, 120, 112, 97, 116, 108, 128, 113, 104, 124, 109, 101, 120, 105, 125, 117,
  101, 121, 113, 105, 117, 109, 101, 121, 105, 125, 110, 102, 121, 113, 98, 118, 109, 129, 114, 106,
  125, 110, 102, 122, 106, 98, 118, 110, 122, 114, 99, 119, 110, 102, 115, 107, 126, 118, 103, 123,
  115, 100, 120, 112, 96, 116, 108, 128, 112, 104, 124, 109, 100, 120, 105, 125, 116, 108, 121, 113,
  104, 124, 109, 101, 120, 105, 125, 117, 101, 121, 113, 98, 117, 109, 129, 114, 105, 125, 110, 102,
  121, 113, 98, 118, 109, 129, 114, 106, 125, 110, 102, 122, 106, 126, 118, 103, 122, 114, 99, 119,
  110, 102, 115, 107, 126, 111, 103, 123, 114, 99, 119, 111, 130, 115, 107, 127, 111, 103, 123, 108,
  99, 119, 104, 124, 115, 100, 120, 112, 103, 116, 108, 128, 119, 104, 124, 116, 100, 120, 112]

/-- `KOREAN_LUNAR_NEWYEARS`, day of the year, 1901-2050 (quantlib/src/time/constants.rs 73-91) -/
def lunarNewYears : List Nat := [
  50, 39, 29, 47, 35, 25, 44, 33, 22, 41, 30, 49, 37, 26, 45, 35, 23, 42, 32, 51,
  39, 28, 47, 36, 24, 44, 33, 23, 41, 30, 48, 37, 26, 45, 35, 24, 42, 31, 50, 39,
  27, 46, 36, 26, 44, 33, 22, 41, 29, 48, 37, 27, 45, 35, 24, 43, 31, 50, 39, 28,
  46, 36, 25, 44, 33, 22, 40, 30, 48, 37, 27, 46, 34, 23, 42, 31, 49, 38, 28, 47,
  36, 25, 44, 33, 51, 40, 29, 49, 37, 27, 46, 35, 23, 41, 31, 50, 39, 28, 47, 36,
  24, 43, 32, 22, 40, 29, 49, 38, 26, 45, 34, 23, 41, 31, 50, 39, 28, 47, 36, 25,
  43, 32, 22, 41, 29, 48, 38, 27, 44, 34, 23, 42, 31, 50, 39, 28, 46, 35, 24, 43,
  32, 22, 41, 30, 48, 37, 26, 45, 33, 23]

/-- The dates of `is_buddha_birthday` (quantlib/src/time/calendars/southkorea.rs 48-162) -/
def buddhaBirthdays : List (Int × Nat × Nat) := [
  (1951, 5, 13), (1952, 5, 1), (1953, 5, 20), (1954, 5, 10), (1955, 5, 29), (1956, 5, 17), (1957, 5, 7),
  (1958, 5, 26), (1959, 5, 15), (1960, 5, 3), (1961, 5, 22), (1962, 5, 11), (1963, 5, 1), (1964, 5, 19),
  (1965, 5, 8), (1966, 5, 27), (1967, 5, 16), (1968, 5, 5), (1969, 5, 23), (1970, 5, 12), (1971, 5, 2),
  (1972, 5, 20), (1973, 5, 10), (1974, 4, 29), (1975, 5, 18), (1976, 5, 6), (1977, 5, 25), (1978, 5, 14),
  (1979, 5, 3), (1980, 5, 21), (1981, 5, 11), (1982, 5, 1), (1983, 5, 20), (1984, 5, 8), (1985, 5, 27),
  (1986, 5, 16), (1987, 5, 5), (1988, 5, 23), (1989, 5, 12), (1990, 5, 2), (1991, 5, 21), (1992, 5, 10),
  (1993, 5, 28), (1994, 5, 18), (1995, 5, 7), (1996, 5, 24), (1997, 5, 14), (1998, 5, 3), (1999, 5, 22),
  (2000, 5, 11), (2001, 5, 1), (2002, 5, 19), (2003, 5, 8), (2004, 5, 26), (2005, 5, 15), (2006, 5, 5),
  (2007, 5, 24), (2008, 5, 12), (2009, 5, 2), (2010, 5, 21), (2011, 5, 10), (2012, 5, 28), (2013, 5, 17),
  (2014, 5, 6), (2015, 5, 25), (2016, 5, 14), (2017, 5, 3), (2018, 5, 22), (2019, 5, 12), (2020, 4, 30),
  (2021, 5, 19), (2022, 5, 8), (2023, 5, 27), (2024, 5, 15), (2025, 5, 5), (2026, 5, 24), (2027, 5, 13),
  (2028, 5, 2), (2029, 5, 20), (2030, 5, 9), (2031, 5, 28), (2032, 5, 16), (2033, 5, 6), (2034, 5, 25),
  (2035, 5, 15), (2036, 5, 3), (2037, 5, 22), (2038, 5, 11), (2039, 4, 30), (2040, 5, 18), (2041, 5, 7),
  (2042, 5, 26), (2043, 5, 16), (2044, 5, 5), (2045, 5, 24), (2046, 5, 13), (2047, 5, 2), (2048, 5, 20),
  (2049, 5, 9), (2050, 5, 28)]

/-- The dates of `is_chuseok` (quantlib/src/time/calendars/southkorea.rs 164-477) -/
def chuseokDays : List (Int × Nat × Nat) := [
  (1951, 9, 14), (1951, 9, 15), (1951, 9, 16), (1952, 10, 2), (1952, 10, 3), (1952, 10, 4), (1953, 9, 21),
  (1953, 9, 22), (1953, 9, 23), (1954, 9, 10), (1954, 9, 11), (1954, 9, 12), (1955, 9, 29), (1955, 9, 30),
  (1955, 10, 1), (1956, 9, 18), (1956, 9, 19), (1956, 9, 20), (1957, 9, 7), (1957, 9, 8), (1957, 9, 9),
  (1958, 9, 26), (1958, 9, 27), (1958, 9, 28), (1959, 9, 16), (1959, 9, 17), (1959, 9, 18), (1960, 10, 4),
  (1960, 10, 5), (1960, 10, 6), (1961, 9, 23), (1961, 9, 24), (1961, 9, 25), (1962, 9, 12), (1962, 9, 13),
  (1962, 9, 14), (1963, 10, 1), (1963, 10, 2), (1963, 10, 3), (1964, 9, 19), (1964, 9, 20), (1964, 9, 21),
  (1965, 9, 9), (1965, 9, 10), (1965, 9, 11), (1966, 9, 28), (1966, 9, 29), (1966, 9, 30), (1967, 9, 17),
  (1967, 9, 18), (1967, 9, 19), (1968, 10, 5), (1968, 10, 6), (1968, 10, 7), (1969, 9, 25), (1969, 9, 26),
  (1969, 9, 27), (1970, 9, 14), (1970, 9, 15), (1970, 9, 16), (1971, 10, 2), (1971, 10, 3), (1971, 10, 4),
  (1972, 9, 21), (1972, 9, 22), (1972, 9, 23), (1973, 9, 10), (1973, 9, 11), (1973, 9, 12), (1974, 9, 29),
  (1974, 9, 30), (1974, 10, 1), (1975, 9, 19), (1975, 9, 20), (1975, 9, 21), (1976, 9, 7), (1976, 9, 8),
  (1976, 9, 9), (1977, 9, 26), (1977, 9, 27), (1977, 9, 28), (1978, 9, 16), (1978, 9, 17), (1978, 9, 18),
  (1979, 10, 4), (1979, 10, 5), (1979, 10, 6), (1980, 9, 22), (1980, 9, 23), (1980, 9, 24), (1981, 9, 11),
  (1981, 9, 12), (1981, 9, 13), (1982, 9, 30), (1982, 10, 1), (1982, 10, 2), (1983, 9, 20), (1983, 9, 21),
  (1983, 9, 22), (1984, 9, 9), (1984, 9, 10), (1984, 9, 11), (1985, 9, 28), (1985, 9, 29), (1985, 9, 30),
  (1986, 9, 17), (1986, 9, 18), (1986, 9, 19), (1987, 10, 6), (1987, 10, 7), (1987, 10, 8), (1988, 9, 24),
  (1988, 9, 25), (1988, 9, 26), (1989, 9, 13), (1989, 9, 14), (1989, 9, 15), (1990, 10, 2), (1990, 10, 3),
  (1990, 10, 4), (1991, 9, 21), (1991, 9, 22), (1991, 9, 23), (1992, 9, 10), (1992, 9, 11), (1992, 9, 12),
  (1993, 9, 29), (1993, 9, 30), (1993, 10, 1), (1994, 9, 19), (1994, 9, 20), (1994, 9, 21), (1995, 9, 8),
  (1995, 9, 9), (1995, 9, 10), (1996, 9, 26), (1996, 9, 27), (1996, 9, 28), (1997, 9, 15), (1997, 9, 16),
  (1997, 9, 17), (1998, 10, 4), (1998, 10, 5), (1998, 10, 6), (1999, 9, 23), (1999, 9, 24), (1999, 9, 25),
  (2000, 9, 11), (2000, 9, 12), (2000, 9, 13), (2001, 9, 30), (2001, 10, 1), (2001, 10, 2), (2002, 9, 20),
  (2002, 9, 21), (2002, 9, 22), (2003, 9, 10), (2003, 9, 11), (2003, 9, 12), (2004, 9, 27), (2004, 9, 28),
  (2004, 9, 29), (2005, 9, 17), (2005, 9, 18), (2005, 9, 19), (2006, 10, 5), (2006, 10, 6), (2006, 10, 7),
  (2007, 9, 24), (2007, 9, 25), (2007, 9, 26), (2008, 9, 13), (2008, 9, 14), (2008, 9, 15), (2009, 10, 2),
  (2009, 10, 3), (2009, 10, 4), (2010, 9, 21), (2010, 9, 22), (2010, 9, 23), (2011, 9, 11), (2011, 9, 12),
  (2011, 9, 13), (2012, 9, 29), (2012, 9, 30), (2012, 10, 1), (2013, 9, 18), (2013, 9, 19), (2013, 9, 20),
  (2014, 9, 7), (2014, 9, 8), (2014, 9, 9), (2015, 9, 26), (2015, 9, 27), (2015, 9, 28), (2016, 9, 14),
  (2016, 9, 15), (2016, 9, 16), (2017, 10, 3), (2017, 10, 4), (2017, 10, 5), (2018, 9, 23), (2018, 9, 24),
  (2018, 9, 25), (2019, 9, 12), (2019, 9, 13), (2019, 9, 14), (2020, 9, 30), (2020, 10, 1), (2020, 10, 2),
  (2021, 9, 20), (2021, 9, 21), (2021, 9, 22), (2022, 9, 9), (2022, 9, 10), (2022, 9, 11), (2023, 9, 28),
  (2023, 9, 29), (2023, 9, 30), (2024, 9, 16), (2024, 9, 17), (2024, 9, 18), (2025, 10, 5), (2025, 10, 6),
  (2025, 10, 7), (2026, 9, 24), (2026, 9, 25), (2026, 9, 26), (2027, 9, 14), (2027, 9, 15), (2027, 9, 16),
  (2028, 10, 2), (2028, 10, 3), (2028, 10, 4), (2029, 9, 21), (2029, 9, 22), (2029, 9, 23), (2030, 9, 11),
  (2030, 9, 12), (2030, 9, 13), (2031, 9, 30), (2031, 10, 1), (2031, 10, 2), (2032, 9, 18), (2032, 9, 19),
  (2032, 9, 20), (2033, 9, 7), (2033, 9, 8), (2033, 9, 9), (2034, 9, 26), (2034, 9, 27), (2034, 9, 28),
  (2035, 9, 15), (2035, 9, 16), (2035, 9, 17), (2036, 10, 3), (2036, 10, 4), (2036, 10, 5), (2037, 9, 23),
  (2037, 9, 24), (2037, 9, 25), (2038, 9, 12), (2038, 9, 13), (2038, 9, 14), (2039, 10, 1), (2039, 10, 2),
  (2039, 10, 3), (2040, 9, 20), (2040, 9, 21), (2040, 9, 22), (2041, 9, 9), (2041, 9, 10), (2041, 9, 11),
  (2042, 9, 27), (2042, 9, 28), (2042, 9, 29), (2043, 9, 16), (2043, 9, 17), (2043, 9, 18), (2044, 10, 4),
  (2044, 10, 5), (2044, 10, 6), (2045, 9, 24), (2045, 9, 25), (2045, 9, 26), (2046, 9, 14), (2046, 9, 15),
  (2046, 9, 16), (2047, 10, 3), (2047, 10, 4), (2047, 10, 5), (2048, 9, 21), (2048, 9, 22), (2048, 9, 23),
  (2049, 9, 10), (2049, 9, 11), (2049, 9, 12), (2050, 9, 29), (2050, 9, 30), (2050, 10, 1)]

/-- The dates of `is_last_business_day_of_year` (quantlib/src/time/calendars/southkorea.rs 481-648) -/
def krxYearEnds : List (Int × Nat × Nat) := [
  (1951, 12, 31), (1952, 12, 31), (1953, 12, 31), (1954, 12, 31), (1955, 12, 30), (1956, 12, 31), (1957, 12, 31),
  (1958, 12, 31), (1959, 12, 31), (1960, 12, 30), (1961, 12, 29), (1962, 12, 31), (1963, 12, 31), (1964, 12, 31),
  (1965, 12, 31), (1966, 12, 30), (1967, 12, 29), (1968, 12, 31), (1969, 12, 31), (1970, 12, 31), (1971, 12, 31),
  (1972, 12, 29), (1973, 12, 31), (1974, 12, 31), (1975, 12, 31), (1976, 12, 31), (1977, 12, 30), (1978, 12, 29),
  (1979, 12, 31), (1980, 12, 31), (1981, 12, 31), (1982, 12, 31), (1983, 12, 30), (1984, 12, 31), (1985, 12, 31),
  (1986, 12, 31), (1987, 12, 31), (1988, 12, 30), (1989, 12, 29), (1990, 12, 31), (1991, 12, 31), (1992, 12, 31),
  (1993, 12, 31), (1994, 12, 30), (1995, 12, 29), (1996, 12, 31), (1997, 12, 31), (1998, 12, 31), (1999, 12, 31),
  (2000, 12, 29), (2001, 12, 31), (2002, 12, 31), (2003, 12, 31), (2004, 12, 31), (2005, 12, 30), (2006, 12, 29),
  (2007, 12, 31), (2008, 12, 31), (2009, 12, 31), (2010, 12, 31), (2011, 12, 30), (2012, 12, 31), (2013, 12, 31),
  (2014, 12, 31), (2015, 12, 31), (2016, 12, 30), (2017, 12, 29), (2018, 12, 31), (2019, 12, 31), (2020, 12, 31),
  (2021, 12, 31), (2022, 12, 30), (2023, 12, 29), (2024, 12, 31), (2025, 12, 31), (2026, 12, 31), (2027, 12, 31),
  (2028, 12, 29), (2029, 12, 31), (2030, 12, 31), (2031, 12, 31), (2032, 12, 31), (2033, 12, 30), (2034, 12, 29),
  (2035, 12, 31), (2036, 12, 31), (2037, 12, 31), (2038, 12, 31), (2039, 12, 30), (2040, 12, 31), (2041, 12, 31),
  (2042, 12, 31), (2043, 12, 31), (2044, 12, 30), (2045, 12, 29), (2046, 12, 31), (2047, 12, 31), (2048, 12, 31),
  (2049, 12, 31), (2050, 12, 30), (2051, 12, 29), (2052, 12, 31), (2053, 12, 31), (2054, 12, 31), (2055, 12, 31),
  (2056, 12, 29), (2057, 12, 31), (2058, 12, 31), (2059, 12, 31), (2060, 12, 31), (2061, 12, 30), (2062, 12, 29),
  (2063, 12, 31), (2064, 12, 31), (2065, 12, 31), (2066, 12, 31), (2067, 12, 30), (2068, 12, 31), (2069, 12, 31),
  (2070, 12, 31), (2071, 12, 31), (2072, 12, 30), (2073, 12, 29), (2074, 12, 31), (2075, 12, 31), (2076, 12, 31),
  (2077, 12, 31), (2078, 12, 30), (2079, 12, 29), (2080, 12, 31), (2081, 12, 31), (2082, 12, 31), (2083, 12, 31),
  (2084, 12, 29), (2085, 12, 31), (2086, 12, 31), (2087, 12, 31), (2088, 12, 31), (2089, 12, 30), (2090, 12, 29),
  (2091, 12, 31), (2092, 12, 31), (2093, 12, 31), (2094, 12, 31), (2095, 12, 30), (2096, 12, 31), (2097, 12, 31),
  (2098, 12, 31), (2099, 12, 31), (2100, 12, 31)]

/-- The dates of `is_temporary_holiday` (quantlib/src/time/calendars/southkorea.rs 650-666) -/
def koreanTemporary : List (Int × Nat × Nat) := [
  (2023, 1, 24), (2023, 5, 1), (2023, 5, 29), (2023, 10, 2), (2024, 2, 12), (2024, 5, 6)]

end Verif.QL
